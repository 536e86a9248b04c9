import Verif.Lemmas.Frame

/-!
Every reachable ecosystem satisfies the invariant.
-/

namespace Flee

open Spec

theorem Inv.addLoc {w : World} {as : List Agent} (h : Inv w as) {l : Loc} (h1 : l.links = [])
    (h2 : l.closedLinks = []) (h3 : l.numAgents = 0) :
    Inv { w with nLoc := w.nLoc + 1, loc := upd w.loc w.nLoc l } as := by
  have hf := h.fresh_loc
  obtain ⟨g1, g2, g3, g4, g5, g6, g7, g8, g9, g10, g11⟩ := h
  have hne : ∀ i, i < w.nLoc → i ≠ w.nLoc := fun i hi => Nat.ne_of_lt hi
  constructor
  · intro i hi m hm
    by_cases hx : i = w.nLoc
    · subst hx; simp [h1, h2] at hm
    · simp only [upd_ne _ _ hx] at hm
      exact g1 i (by simp only at hi; omega) m hm
  · intro i hi
    by_cases hx : i = w.nLoc
    · subst hx; simp [h1, h2]
    · simp only [upd_ne _ _ hx]
      exact g2 i (by simp only at hi; omega)
  · intro m hm
    have := g3 m hm
    simp only
    omega
  · intro i hi m hm
    by_cases hx : i = w.nLoc
    · subst hx; simp [h1] at hm
    · simp only [upd_ne _ _ hx] at hm
      exact g4 i (by simp only at hi; omega) m hm
  · intro i hi m hm
    by_cases hx : i = w.nLoc
    · subst hx; simp [h2] at hm
    · simp only [upd_ne _ _ hx] at hm
      exact g5 i (by simp only at hi; omega) m hm
  · intro i hi m hm
    by_cases hx : i = w.nLoc
    · subst hx; simp [h2] at hm
    · simp only [upd_ne _ _ hx] at hm
      exact g6 i (by simp only at hi; omega) m hm
  · intro a ha
    have := g7 a ha
    revert this
    cases a.place <;> simp only [PlaceOK] <;> omega
  · exact g8
  · intro i hi
    by_cases hx : i = w.nLoc
    · subst hx; simp [h3, hf]
    · simp only [upd_ne _ _ hx]
      exact g9 i (by simp only at hi; omega)
  · exact g10
  · exact g11

theorem mkLoc_fields (c : Cfg) (a : LocArgs) :
    (mkLoc c a).links = [] ∧ (mkLoc c a).closedLinks = [] ∧ (mkLoc c a).numAgents = 0 := by
  unfold mkLoc
  dsimp only
  cases a.ty with
  | none => dsimp only; split <;> simp
  | some ty =>
    dsimp only
    have := applyTag_fields c a.intensity
      { name := a.name, country := a.country, foreign := a.foreign, movechance := a.movechance,
        capacity := a.capacity, pop := a.pop, deactProb := a.deactProb, x := a.x, y := a.y } (typeTag ty)
    split <;> simp [this]

theorem addLocation_inv {c : Cfg} {w w' : World} {as : List Agent} {a : LocArgs} (h : Inv w as)
    (g : addLocation c w a = .ok w') : Inv w' as := by
  obtain ⟨h1, h2, h3⟩ := mkLoc_fields c a
  exact (h.addLoc h1 h2 h3).same ((updateLocationScore_rescored g).same)

/-- A new link object from `k.start`, appended to the open links of its start. -/
def addLinkAt (w : World) (k : Lnk) : World :=
  { w with
    nLink := w.nLink + 1
    link := upd w.link w.nLink k
    loc := upd w.loc k.start { w.loc k.start with links := (w.loc k.start).links ++ [w.nLink] } }

theorem Inv.addLink {w : World} {as : List Agent} (h : Inv w as) {k : Lnk} (h1 : k.start < w.nLoc)
    (h2 : k.endp < w.nLoc) (h3 : k.closed = false) (h4 : k.numAgents = 0) : Inv (addLinkAt w k) as := by
  have hf := h.fresh_link
  obtain ⟨g1, g2, g3, g4, g5, g6, g7, g8, g9, g10, g11⟩ := h
  have hmem : ∀ i < w.nLoc, ∀ m, m ∈ ((addLinkAt w k).loc i).links →
      m ∈ (w.loc i).links ∨ (i = k.start ∧ m = w.nLink) := by
    intro i hi m hm
    by_cases hix : i = k.start
    · subst hix
      simp only [addLinkAt, upd_same, List.mem_append, List.mem_singleton] at hm
      rcases hm with hm | hm
      · exact .inl hm
      · exact .inr ⟨rfl, hm⟩
    · simp only [addLinkAt, upd_ne _ _ hix] at hm
      exact .inl hm
  have hcl : ∀ i, ((addLinkAt w k).loc i).closedLinks = (w.loc i).closedLinks := by
    intro i
    by_cases hix : i = k.start
    · subst hix; simp [addLinkAt]
    · simp [addLinkAt, hix]
  have hold : ∀ m < w.nLink, (addLinkAt w k).link m = w.link m := by
    intro m hm; simp [addLinkAt, Nat.ne_of_lt hm]
  have hnew : (addLinkAt w k).link w.nLink = k := by simp [addLinkAt]
  constructor
  · intro i hi m hm
    rw [hcl] at hm
    have hold' : m ∈ (w.loc i).links ∨ m ∈ (w.loc i).closedLinks →
        m < (addLinkAt w k).nLink ∧ ((addLinkAt w k).link m).start = i := by
      intro hm
      have := g1 i hi m hm
      rw [hold m this.1]
      exact ⟨Nat.lt_succ_of_lt this.1, this.2⟩
    rcases hm with hm | hm
    · rcases hmem i hi m hm with hm | ⟨rfl, rfl⟩
      · exact hold' (.inl hm)
      · rw [hnew]; exact ⟨Nat.lt_succ_self _, rfl⟩
    · exact hold' (.inr hm)
  · intro i hi
    rw [hcl]
    by_cases hix : i = k.start
    · subst hix
      simp only [addLinkAt, upd_same]
      have hn : w.nLink ∉ (w.loc k.start).links ++ (w.loc k.start).closedLinks := by
        intro hm
        rw [List.mem_append] at hm
        exact absurd (g1 _ hi _ hm).1 (lt_irrefl _)
      have hp : ((w.loc k.start).links ++ [w.nLink] ++ (w.loc k.start).closedLinks).Perm
          (w.nLink :: ((w.loc k.start).links ++ (w.loc k.start).closedLinks)) := by
        simp
      exact hp.nodup_iff.mpr (List.nodup_cons.mpr ⟨hn, g2 _ hi⟩)
    · simp only [addLinkAt, upd_ne _ _ hix]
      exact g2 i hi
  · intro m hm
    by_cases hmn : m = w.nLink
    · subst hmn; rw [hnew]; exact ⟨h1, h2⟩
    · have : m < w.nLink := by simp only [addLinkAt] at hm; omega
      rw [hold m this]; exact g3 m this
  · intro i hi m hm
    rcases hmem i hi m hm with hm | ⟨rfl, rfl⟩
    · rw [hold m (g1 i hi m (.inl hm)).1]; exact g4 i hi m hm
    · rw [hnew]; exact h3
  · intro i hi m hm
    rw [hcl] at hm
    rw [hold m (g1 i hi m (.inr hm)).1]; exact g5 i hi m hm
  · intro i hi m hm
    rw [hcl] at hm
    exact g6 i hi m hm
  · intro a ha
    have := g7 a ha
    revert this
    cases a.place <;> simp only [PlaceOK, addLinkAt] <;> omega
  · exact g8
  · intro i hi
    rw [← g9 i hi]
    by_cases hix : i = k.start
    · subst hix; simp [addLinkAt]
    · simp [addLinkAt, hix]
  · intro m hm
    by_cases hmn : m = w.nLink
    · subst hmn; rw [hnew, hf, h4]; rfl
    · have : m < w.nLink := by simp only [addLinkAt] at hm; omega
      rw [hold m this]; exact g10 m this
  · intro m hm
    by_cases hmn : m = w.nLink
    · subst hmn; rw [hnew, h4]; exact Int.natCast_nonneg _
    · have : m < w.nLink := by simp only [addLinkAt] at hm; omega
      rw [hold m this]; exact g11 m this

theorem lastIdx_some {w : World} {n : String} {x : Nat} (h : w.lastIdx n = some x) :
    x < w.nLoc ∧ (w.loc x).name.val = n := by
  have h1 := List.mem_of_find?_eq_some h
  have h2 := List.find?_some h
  simp at h1 h2
  exact ⟨h1, h2⟩

theorem linkUp_eq {w w' : World} {n1 n2 : String} {d : ℚ} {f : Bool} {s : Option ℚ} {k : ℚ}
    (h : linkUp w n1 n2 d f s k = .ok w') : ∃ x y, w.lastIdx n1 = some x ∧ w.lastIdx n2 = some y ∧
      w' = addLinkAt (addLinkAt w { start := x, endp := y, dist := d, forced := f, maxMoveSpeed := s,
                                    walkProb := k, dict := w.nLink })
        { start := y, endp := x, dist := d, maxMoveSpeed := s, walkProb := k, dict := w.nLink + 1 } := by
  unfold linkUp at h
  split at h
  · rename_i x y hx hy
    simp only [Except.ok.injEq] at h
    refine ⟨x, y, hx, hy, ?_⟩
    rw [← h]
    simp [addLinkAt, World.newLink, World.setLoc]
  · simp at h

theorem linkUp_inv {w w' : World} {as : List Agent} {n1 n2 : String} {d : ℚ} {f : Bool} {s : Option ℚ}
    {k : ℚ} (hi : Inv w as) (h : linkUp w n1 n2 d f s k = .ok w') : Inv w' as := by
  obtain ⟨x, y, hx, hy, rfl⟩ := linkUp_eq h
  have hx := (lastIdx_some hx).1
  have hy := (lastIdx_some hy).1
  have h1 := hi.addLink (k := { start := x, endp := y, dist := d, forced := f, maxMoveSpeed := s,
                                    walkProb := k, dict := w.nLink }) hx hy rfl rfl
  exact h1.addLink hy hx rfl rfl

theorem agentsAt_append (as bs : List Agent) (i : Nat) :
    agentsAt (as ++ bs) i = agentsAt as i + agentsAt bs i := by
  simp [agentsAt, List.countP_append]

theorem agentsOn_append (as bs : List Agent) (i : Nat) :
    agentsOn (as ++ bs) i = agentsOn as i + agentsOn bs i := by
  simp [agentsOn, List.countP_append]

theorem insertAgent_inv {e e' : Eco} {i : Nat} {at' : List (String × String)} (hi : Inv e.w e.agents)
    (h : e.insertAgent i at' = .ok e') : Inv e'.w e'.agents := by
  unfold Eco.insertAgent at h
  split at h
  · rename_i hlt
    simp only [Except.ok.injEq] at h
    subst h
    obtain ⟨g1, g2, g3, g4, g5, g6, g7, g8, g9, g10, g11⟩ := hi
    have hl : ∀ j, ((e.w.incr (.loc i)).loc j).links = (e.w.loc j).links ∧
        ((e.w.incr (.loc i)).loc j).closedLinks = (e.w.loc j).closedLinks ∧
        ((e.w.incr (.loc i)).loc j).numAgents = (e.w.loc j).numAgents + if j = i then 1 else 0 := by
      intro j
      by_cases hj : j = i
      · subst hj; simp [World.incr, World.setLoc]
      · simp [World.incr, World.setLoc, hj]
    have hon : ∀ l, agentsOn (e.agents ++ [{ place := .loc i, home := i, attrs := at' }]) l =
        agentsOn e.agents l := by
      intro l; rw [agentsOn_append]; simp [agentsOn]
    constructor
    · intro j hj m hm
      rw [(hl j).1, (hl j).2.1] at hm
      exact g1 j hj m hm
    · intro j hj; rw [(hl j).1, (hl j).2.1]; exact g2 j hj
    · exact g3
    · intro j hj m hm; exact g4 j hj m ((hl j).1 ▸ hm)
    · intro j hj m hm; exact g5 j hj m ((hl j).2.1 ▸ hm)
    · intro j hj m hm; rw [hon]; exact g6 j hj m ((hl j).2.1 ▸ hm)
    · intro a ha
      rw [List.mem_append, List.mem_singleton] at ha
      rcases ha with ha | rfl
      · have := g7 a ha
        revert this
        cases a.place <;> exact id
      · exact hlt
    · intro a ha
      rw [List.mem_append, List.mem_singleton] at ha
      rcases ha with ha | rfl
      · exact g8 a ha
      · simp [TravelOK]
    · intro j hj
      rw [(hl j).2.2, agentsAt_append, g9 j hj]
      by_cases hji : j = i
      · subst hji; simp [agentsAt]
      · simp [agentsAt, hji, Ne.symm hji]
    · intro l hl'; rw [hon]; exact g10 l hl'
    · exact g11
  · simp at h

/-- The network as far as the invariant reads it, without counters. -/
theorem clearLocations_rel {ns : List String} : ∀ {as : List Agent} {w w' : World},
    clearLocations ns w as = .ok w' →
    w'.nLoc = w.nLoc ∧ w'.nLink = w.nLink ∧ (∀ i, (w'.loc i).core = (w.loc i).core) ∧
    (∀ l, { w'.link l with numAgents := 0 } = { w.link l with numAgents := 0 }) ∧
    (∀ i, (w'.loc i).numAgents + agentsAt as i = (w.loc i).numAgents) ∧
    (∀ l, (w'.link l).numAgents + agentsOn as l = (w.link l).numAgents)
  | [], w, w', h => by
    simp only [clearLocations, Except.ok.injEq] at h
    subst h
    simp [agentsAt, agentsOn]
  | a :: as, w, w', h => by
    unfold clearLocations at h
    split at h
    · simp at h
    · rename_i n hn
      split at h
      · obtain ⟨h1, h2, h3, h4, h5, h6⟩ := clearLocations_rel h
        have hp : ∀ i, a.place ≠ .gone i := by
          intro i hi; rw [hi] at hn; simp [World.placeName] at hn
        have hd1 : ∀ i, ((w.decr a.place).loc i).core = (w.loc i).core ∧
            ((w.decr a.place).loc i).numAgents + indLoc a.place i = (w.loc i).numAgents := by
          intro i
          cases hpl : a.place with
          | loc j =>
            by_cases hij : i = j
            · subst hij; simp [World.decr, World.setLoc, Loc.core, indLoc]
            · simp [World.decr, World.setLoc, indLoc, hij, Ne.symm hij]
          | link l => simp [World.decr, World.setLink, indLoc]
          | gone j => exact absurd hpl (hp j)
        have hd2 : ∀ i, { (w.decr a.place).link i with numAgents := 0 } = { w.link i with numAgents := 0 } ∧
            ((w.decr a.place).link i).numAgents + indLink a.place i = (w.link i).numAgents := by
          intro i
          cases hpl : a.place with
          | link j =>
            by_cases hij : i = j
            · subst hij; simp [World.decr, World.setLink, indLink]
            · simp [World.decr, World.setLink, indLink, hij, Ne.symm hij]
          | loc l => simp [World.decr, World.setLoc, indLink]
          | gone j => exact absurd hpl (hp j)
        have hn1 : (w.decr a.place).nLoc = w.nLoc := by cases a.place <;> rfl
        have hn2 : (w.decr a.place).nLink = w.nLink := by cases a.place <;> rfl
        refine ⟨h1.trans hn1, h2.trans hn2, fun i => (h3 i).trans (hd1 i).1, fun l => (h4 l).trans (hd2 l).1,
          fun i => ?_, fun l => ?_⟩
        · rw [agentsAt_cons]; have := h5 i; have := (hd1 i).2; omega
        · rw [agentsOn_cons]; have := h6 l; have := (hd2 l).2; omega
      · simp at h

theorem clearLocations_inv {ns : List String} {as : List Agent} {w w' : World} (hi : Inv w as)
    (h : clearLocations ns w as = .ok w') : Inv w' [] := by
  obtain ⟨h1, h2, h3, h4, h5, h6⟩ := clearLocations_rel h
  obtain ⟨g1, g2, g3, g4, g5, g6, g7, g8, g9, g10, g11⟩ := hi
  have hl : ∀ i, (w'.loc i).links = (w.loc i).links := fun i => (congrArg Loc.links (h3 i) :)
  have hc : ∀ i, (w'.loc i).closedLinks = (w.loc i).closedLinks := fun i => (congrArg Loc.closedLinks (h3 i) :)
  have hs : ∀ l, (w'.link l).start = (w.link l).start := fun l => (congrArg Lnk.start (h4 l) :)
  have he : ∀ l, (w'.link l).endp = (w.link l).endp := fun l => (congrArg Lnk.endp (h4 l) :)
  have hcl : ∀ l, (w'.link l).closed = (w.link l).closed := fun l => (congrArg Lnk.closed (h4 l) :)
  constructor
  · intro i hi m hm
    rw [hl, hc] at hm; rw [h2, hs]; exact g1 i (h1 ▸ hi) m hm
  · intro i hi; rw [hl, hc]; exact g2 i (h1 ▸ hi)
  · intro l hl; rw [hs, he, h1]; exact g3 l (h2 ▸ hl)
  · intro i hi m hm; rw [hcl]; exact g4 i (h1 ▸ hi) m (hl i ▸ hm)
  · intro i hi m hm; rw [hcl]; exact g5 i (h1 ▸ hi) m (hc i ▸ hm)
  · intro i hi m hm; rfl
  · simp
  · simp
  · intro i hi
    have := h5 i; have := g9 i (h1 ▸ hi)
    simp only [agentsAt, List.countP_nil] at *
    omega
  · intro i hi
    have := h6 i; have := g10 i (h2 ▸ hi)
    simp only [agentsOn, List.countP_nil] at *
    omega
  · intro i hi
    have := h6 i; have := g10 i (h2 ▸ hi)
    have : (w'.link i).cumNumAgents = (w.link i).cumNumAgents := (congrArg Lnk.cumNumAgents (h4 i) :)
    omega

theorem Path.placeOK {w : World} {as : List Agent} (h : Inv w as) {p q : Place} {ps : List Place}
    (g : Path w p ps q) (hp : PlaceOK w p) : PlaceOK w q := by
  induction g with
  | nil => exact hp
  | cons hh _ ih =>
    refine ih ?_
    cases hh with
    | depart i l hl => exact (h.lnk i hp l (.inl hl)).1
    | arrive l _ => exact (h.ends l hp).2
    | turnBack l _ => exact (h.ends l hp).1

/-- A link that is in some list of closed links. -/
def ListedClosed (w : World) (p : Place) : Prop :=
  ∃ i < w.nLoc, ∃ l ∈ (w.loc i).closedLinks, p = .link l

theorem Path.notClosed {w : World} {as : List Agent} (h : Inv w as) {p q : Place} {ps : List Place}
    (g : Path w p ps q) (hp : PlaceOK w p) (hc : ¬ ListedClosed w p) : ¬ ListedClosed w q := by
  induction g with
  | nil => exact hc
  | cons hh _ ih =>
    have hq := Path.placeOK h (.cons hh (.nil _)) hp
    refine ih hq ?_
    cases hh with
    | depart i l hl =>
      rintro ⟨j, hj, m, hm, he⟩
      have hcl := h.cls j hj m hm
      simp only [Place.link.injEq] at he
      subst he
      rw [h.opn i hp l hl] at hcl
      simp at hcl
    | arrive l _ => rintro ⟨j, hj, m, hm, he⟩; simp at he
    | turnBack l _ => rintro ⟨j, hj, m, hm, he⟩; simp at he

theorem Inv.listStep {w w' : World} {as as' : List Agent} (h : Inv w as) (g : ListStep w as w' as') :
    Inv w' as' := by
  have hH : ∀ {p q ps}, Path w p ps q → PlaceOK w p → PlaceOK w q := fun x y => Path.placeOK h x y
  have hN : ∀ {p q ps}, Path w p ps q → PlaceOK w p → ¬ ListedClosed w p → ¬ ListedClosed w q :=
    fun x y z => Path.notClosed h x y z
  obtain ⟨g1, g2, g3, g4, g5, g6, g7, g8, g9, g10, g11⟩ := h
  have hl : ∀ i, (w'.loc i).links = (w.loc i).links := fun i => (congrArg Loc.links (g.locCore i) :)
  have hc : ∀ i, (w'.loc i).closedLinks = (w.loc i).closedLinks :=
    fun i => (congrArg Loc.closedLinks (g.locCore i) :)
  have hs : ∀ l, (w'.link l).start = (w.link l).start := fun l => (congrArg Lnk.start (g.linkCore l) :)
  have he : ∀ l, (w'.link l).endp = (w.link l).endp := fun l => (congrArg Lnk.endp (g.linkCore l) :)
  have hcl : ∀ l, (w'.link l).closed = (w.link l).closed := fun l => (congrArg Lnk.closed (g.linkCore l) :)
  have hpl : ∀ p, PlaceOK w p → PlaceOK w' p := by
    intro p; cases p <;> simp only [PlaceOK, g.nLoc, g.nLink] <;> exact id
  have hnew : ∀ a' ∈ as', PlaceOK w a'.place ∧ ¬ ListedClosed w a'.place := by
    have hold : ∀ a ∈ as, PlaceOK w a.place ∧ ¬ ListedClosed w a.place := by
      rintro a ha
      refine ⟨g7 a ha, ?_⟩
      rintro ⟨i, hi, l, hl', hp⟩
      have := g6 i hi l hl'
      simp only [agentsOn, List.countP_eq_zero, decide_eq_true_eq] at this
      exact this a ha hp
    obtain ⟨pss, hk, -⟩ := g.paths
    clear g g6 g7 g8 g9 g10 hpl
    induction hk with
    | nil => simp
    | cons k _ ih =>
      simp only [List.mem_cons, forall_eq_or_imp] at hold ⊢
      exact ⟨⟨hH k hold.1.1, hN k hold.1.1 hold.1.2⟩, ih hold.2⟩
  constructor
  · intro i hi m hm
    rw [hl, hc] at hm; rw [g.nLink, hs]; exact g1 i (g.nLoc ▸ hi) m hm
  · intro i hi; rw [hl, hc]; exact g2 i (g.nLoc ▸ hi)
  · intro l hl; rw [hs, he, g.nLoc]; exact g3 l (g.nLink ▸ hl)
  · intro i hi m hm; rw [hcl]; exact g4 i (g.nLoc ▸ hi) m (hl i ▸ hm)
  · intro i hi m hm; rw [hcl]; exact g5 i (g.nLoc ▸ hi) m (hc i ▸ hm)
  · intro i hi m hm
    refine agentsOn_eq_zero fun a ha => ?_
    exact fun hp => (hnew a ha).2 ⟨i, g.nLoc ▸ hi, m, hc i ▸ hm, hp⟩
  · intro a ha; exact hpl _ (hnew a ha).1
  · exact g.ok g8
  · intro i hi
    have := g.locNum i; have := g9 i (g.nLoc ▸ hi); omega
  · intro i hi
    have := g.linkNum i; have := g10 i (g.nLink ▸ hi); omega
  · intro i hi
    have := g.linkSlack i; have := g11 i (g.nLink ▸ hi); omega

/-- Stages of a time step. -/
theorem evolve_decomp {c : Cfg} {fuel : Nat} {e e' : Eco} (h : e.evolve c fuel = .ok e') :
    ∃ sw w1 w2 as2 w3 as3, refreshSpawnWeights c e.w = .ok sw ∧ updateScores c e.w = .ok w1 ∧
      evolveAll c w1 e.agents = .ok (w2, as2) ∧ finishAll c fuel w2 as2 = .ok (w3, as3) ∧
      ∃ r, r = (if c.campsAreSinks then sinkAll w3 (as3.map (updateRecent c))
        else (w3, as3.map (updateRecent c))) ∧
      e' = { e with w := { r.1 with time := r.1.time + 1 }, agents := r.2, spawnWeights := sw } := by
  simp only [Eco.evolve, Except.bind_eq_ok, Except.pure_eq_ok] at h
  obtain ⟨sw, h1, w1, h2, ⟨w2, as2⟩, h3, ⟨w3, as3⟩, h4, h5⟩ := h
  exact ⟨sw, w1, w2, as2, w3, as3, h1, h2, h3, h4, _, rfl, h5.symm⟩

theorem sinkOne_cases (w : World) (a : Agent) :
    (∃ d, (sinkOne w a).1 = { w with draws := d }) ∧
    ((sinkOne w a).2 = a ∨ ∃ i, a.travelling = false ∧ a.place = .loc i ∧ (w.loc i).camp = true ∧
      (sinkOne w a).2 = { a with place := .gone i }) := by
  unfold sinkOne
  split
  · exact ⟨⟨_, rfl⟩, .inl rfl⟩
  · rename_i ht
    split
    · rename_i i hi
      split
      · rename_i hcamp
        split
        · exact ⟨⟨_, rfl⟩, .inr ⟨i, by simpa using ht, hi, hcamp, rfl⟩⟩
        · exact ⟨⟨_, rfl⟩, .inl rfl⟩
      · exact ⟨⟨_, rfl⟩, .inl rfl⟩
    · exact ⟨⟨_, rfl⟩, .inl rfl⟩

/-- What deactivation does to one agent. -/
def Sunk (w : World) (a a' : Agent) : Prop :=
  a' = a ∨ ∃ i, a.travelling = false ∧ a.place = .loc i ∧ (w.loc i).camp = true ∧
    a' = { a with place := .gone i }

theorem sinkAll_spec : ∀ (as : List Agent) (w : World),
    (∃ d, (sinkAll w as).1 = { w with draws := d }) ∧ List.Forall₂ (Sunk w) as (sinkAll w as).2
  | [], w => ⟨⟨_, rfl⟩, .nil⟩
  | a :: as, w => by
    obtain ⟨⟨d, hd⟩, h1⟩ := sinkOne_cases w a
    obtain ⟨⟨d', hd'⟩, h2⟩ := sinkAll_spec as (sinkOne w a).1
    refine ⟨⟨d', ?_⟩, .cons h1 ?_⟩
    · simp only [sinkAll]
      rw [hd', hd]
    · refine h2.imp fun a b h => ?_
      unfold Sunk at h ⊢
      rwa [hd] at h

theorem sunk_counts {w : World} {as as' : List Agent} (h : List.Forall₂ (Sunk w) as as') :
    (∀ i, agentsAt as' i = agentsAt as i) ∧ (∀ l, agentsOn as' l = agentsOn as l) := by
  induction h with
  | nil => exact ⟨fun _ => rfl, fun _ => rfl⟩
  | @cons a a' as as' hk _ ih =>
    constructor
    · intro i
      have : (agentsAt (a' :: as') i : Int) = agentsAt (a :: as) i := by
        rw [agentsAt_cons, agentsAt_cons, ih.1]
        rcases hk with rfl | ⟨j, _, hj, _, rfl⟩
        · rfl
        · simp [indLoc, hj]
      exact_mod_cast this
    · intro i
      have : (agentsOn (a' :: as') i : Int) = agentsOn (a :: as) i := by
        rw [agentsOn_cons, agentsOn_cons, ih.2]
        rcases hk with rfl | ⟨j, _, hj, _, rfl⟩
        · rfl
        · simp [indLink, hj]
      exact_mod_cast this

theorem Inv.agents {w : World} {as as' : List Agent} (h : Inv w as)
    (h1 : ∀ i, agentsAt as' i = agentsAt as i) (h2 : ∀ l, agentsOn as' l = agentsOn as l)
    (h3 : ∀ a ∈ as', PlaceOK w a.place) (h4 : ∀ a ∈ as', TravelOK a) : Inv w as' where
  lnk := h.lnk
  nodup := h.nodup
  ends := h.ends
  opn := h.opn
  cls := h.cls
  emp i hi l hl := by rw [h2]; exact h.emp i hi l hl
  places := h3
  travel := h4
  cntLoc i hi := by rw [h1]; exact h.cntLoc i hi
  cntLink i hi := by rw [h2]; exact h.cntLink i hi
  cum := h.cum

theorem Inv.sunk {w : World} {as as' : List Agent} (h : Inv w as) (g : List.Forall₂ (Sunk w) as as') :
    Inv w as' := by
  obtain ⟨h1, h2⟩ := sunk_counts g
  have : ∀ a ∈ as', PlaceOK w a.place ∧ TravelOK a := by
    have h3 : ∀ a ∈ as, PlaceOK w a.place ∧ TravelOK a := fun a ha => ⟨h.places a ha, h.travel a ha⟩
    clear h h1 h2
    induction g with
    | nil => simp
    | cons hk _ ih =>
      simp only [List.mem_cons, forall_eq_or_imp] at h3 ⊢
      refine ⟨?_, ih h3.2⟩
      rcases hk with rfl | ⟨j, ht, hj, _, rfl⟩
      · exact h3.1
      · have := h3.1
        rw [hj] at this
        exact ⟨this.1, by simp [TravelOK, ht, this.2.2 ht]⟩
  exact h.agents h1 h2 (fun a ha => (this a ha).1) (fun a ha => (this a ha).2)

theorem Inv.recent {c : Cfg} {w : World} {as : List Agent} (h : Inv w as) :
    Inv w (as.map (updateRecent c)) := by
  refine h.agents (fun i => ?_) (fun l => ?_) ?_ ?_
  · rw [agentsAt, List.countP_map]; rfl
  · rw [agentsOn, List.countP_map]; rfl
  · intro a ha
    obtain ⟨b, hb, rfl⟩ := List.mem_map.mp ha
    exact h.places b hb
  · intro a ha
    obtain ⟨b, hb, rfl⟩ := List.mem_map.mp ha
    exact h.travel b hb

theorem Inv.drawsTime {w : World} {as : List Agent} (h : Inv w as) (d : Nat → ℚ) (t : Nat) :
    Inv { w with draws := d, time := t } as :=
  ⟨h.lnk, h.nodup, h.ends, h.opn, h.cls, h.emp, h.places, h.travel, h.cntLoc, h.cntLink, h.cum⟩

theorem evolve_inv {c : Cfg} {fuel : Nat} {e e' : Eco} (hi : Inv e.w e.agents)
    (h : e.evolve c fuel = .ok e') : Inv e'.w e'.agents := by
  obtain ⟨sw, w1, w2, as2, w3, as3, _, h2, h3, h4, r, hr, rfl⟩ := evolve_decomp h
  have i1 := hi.same (updateScores_same h2)
  have i2 := i1.listStep (evolveAll_step h3 i1.travel)
  have i3 := (i2.listStep (finishAll_step h4 i2.travel)).recent (c := c)
  split at hr
  · obtain ⟨⟨d, hd⟩, hs⟩ := sinkAll_spec (as3.map (updateRecent c)) w3
    rw [hr]
    rw [hd]
    exact (i3.sunk hs).drawsTime d _
  · rw [hr]
    exact i3.drawsTime w3.draws _

theorem enactOne_netOp {c : Cfg} {fuel : Nat} {t : Int} {tw : Bool} {w w' : World} {r : Closure}
    (h : enactOne c fuel t tw w r = .ok w') : NetOp (· = true) w w' := by
  simp only [enactOne, Except.bind_eq_ok] at h
  obtain ⟨w1, h1, h2⟩ := h
  have map_ok : ∀ {x : Except Err (World × Bool)} {w : World}, x.map (·.1) = .ok w → ∃ b, x = .ok (w, b) := by
    intro x w hx
    cases x with
    | error e => simp [Except.map] at hx
    | ok p => simp only [Except.map, Except.ok.injEq] at hx; exact ⟨p.2, by rw [← hx]⟩
  have i1 : NetOp (· = true) w w1 := by
    unfold enactStart at h1
    (repeat' split at h1)
    · exact (changeBorder_netOp h1).mono fun b hb => hb.1
    · obtain ⟨b, h1⟩ := map_ok h1; exact closeLocation_netOp h1
    · obtain ⟨b, h1⟩ := map_ok h1; exact closeLink_netOp h1
    · exact .same .refl (closeCamp_same h1)
    · exact .same .refl (closeCamp_same h1)
    · exact .same .refl (setForcedRedirection_same h1)
    · simp only [Except.ok.injEq] at h1; exact h1 ▸ .refl
    · simp only [Except.ok.injEq] at h1; exact h1 ▸ .refl
  refine i1.trans ?_
  unfold enactStop at h2
  (repeat' split at h2)
  · exact (changeBorder_netOp h2).mono fun b hb => hb.1
  · obtain ⟨b, h2⟩ := map_ok h2; exact reopenLocation_netOp h2
  · obtain ⟨b, h2⟩ := map_ok h2; exact reopenLink_netOp h2
  · exact .same .refl (openCamp_same h2)
  · exact .same .refl (openCamp_same h2)
  · exact .same .refl (setForcedRedirection_same h2)
  · simp only [Except.ok.injEq] at h2; exact h2 ▸ .refl
  · simp only [Except.ok.injEq] at h2; exact h2 ▸ .refl

theorem enactClosures_netOp {c : Cfg} {fuel : Nat} {t : Int} {tw : Bool} {rows : List Closure} {w w' : World}
    (h : enactClosures c fuel t tw rows w = .ok w') : NetOp (· = true) w w' :=
  foldlM_netOp (fun _ _ _ => enactOne_netOp) h

theorem refresh_eq {c : Cfg} {e e' : Eco} (h : Eco.refresh c e = .ok e') :
    e'.w = e.w ∧ e'.agents = e.agents := by
  simp only [Eco.refresh, Except.bind_eq_ok, Except.pure_eq_ok] at h
  obtain ⟨_, _, rfl⟩ := h
  exact ⟨rfl, rfl⟩

/-- May the operation take links off the lists of open links, by removing them (`false`) or by closing
them (`true`)? -/
def Op.may : Op → Bool → Prop
  | .removeLink _ _ _ co, b => b = co
  | .closeLocation _ _ _, b => b = true
  | .closeBorder _ _ _ _, b => b = true
  | .enactClosures _ _ _, b => b = true
  | _, _ => False

/-- What an operation can do to the network and the agents. -/
inductive OpKind (op : Op) (c : Cfg) (e e' : Eco) : Prop
  | net : NetOp op.may e.w e'.w → e'.agents = e.agents → OpKind op c e e'
  | addLoc (a : LocArgs) : op = .addLocation a → addLocation c e.w a = .ok e'.w → e'.agents = e.agents → OpKind op c e e'
  | link (n1 n2 : String) (d : ℚ) (f : Bool) (s : Option ℚ) (k : ℚ) :
      op = .linkUp n1 n2 d f s k → linkUp e.w n1 n2 d f s k = .ok e'.w → e'.agents = e.agents → OpKind op c e e'
  | insert (e₁ : Eco) (i : Nat) (attrs : List (String × String)) : SameNet e.w e₁.w →
      e₁.agents = e.agents → e₁.insertAgent i attrs = .ok e' → OpKind op c e e'
  | evolve (fuel : Nat) : op = .evolve fuel → e.evolve c fuel = .ok e' → OpKind op c e e'
  | clear (names : List String) : op = .clearLocations names → Flee.clearLocations names e.w e.agents = .ok e'.w →
      e'.agents = [] → OpKind op c e e'

theorem addAgent_kind {op : Op} {c : Cfg} {e e' : Eco} {i : Nat} {at' : List (String × String)}
    (h : e.addAgent c i at' = .ok e') : OpKind op c e e' := by
  unfold Eco.addAgent at h
  split at h
  · dsimp only at h
    refine .insert _ i at' ?_ ?_ h
    · dsimp only
      split
      · exact .setLoc _ _ _ rfl rfl rfl rfl rfl
      · exact .refl _
    · rfl
  · simp at h

theorem exec_kind {c : Cfg} {e e' : Eco} {op : Op} (h : op.exec c e = .ok e') : OpKind op c e e' := by
  cases op with
  | addLocation a =>
    simp only [Op.exec, Except.bind_eq_ok] at h
    obtain ⟨w, h1, h⟩ := h
    obtain ⟨h2, h3⟩ := refresh_eq h
    exact .addLoc a rfl (by rw [h2]; exact h1) h3
  | linkUp =>
    simp only [Op.exec, Except.bind_eq_ok, Except.pure_eq_ok] at h
    obtain ⟨w, h1, rfl⟩ := h
    exact .link _ _ _ _ _ _ rfl h1 rfl
  | addAgent => exact addAgent_kind h
  | insertAgent => exact .insert e _ _ (.refl _) rfl h
  | evolve => exact .evolve _ rfl h
  | removeLink =>
    simp only [Op.exec, Except.bind_eq_ok, Except.pure_eq_ok] at h
    obtain ⟨⟨w, b⟩, h1, rfl⟩ := h
    exact .net (removeLink_netOp h1) rfl
  | reopenLink =>
    simp only [Op.exec, Except.bind_eq_ok, Except.pure_eq_ok] at h
    obtain ⟨⟨w, b⟩, h1, rfl⟩ := h
    exact .net (reopenLink_netOp h1) rfl
  | closeLocation =>
    simp only [Op.exec, Except.bind_eq_ok, Except.pure_eq_ok] at h
    obtain ⟨⟨w, b⟩, h1, rfl⟩ := h
    exact .net (closeLocation_netOp h1) rfl
  | reopenLocation =>
    simp only [Op.exec, Except.bind_eq_ok, Except.pure_eq_ok] at h
    obtain ⟨⟨w, b⟩, h1, rfl⟩ := h
    exact .net (reopenLocation_netOp h1) rfl
  | closeBorder =>
    simp only [Op.exec, Except.bind_eq_ok, Except.pure_eq_ok] at h
    obtain ⟨w, h1, rfl⟩ := h
    exact .net ((changeBorder_netOp h1).mono fun b hb => hb.1) rfl
  | reopenBorder =>
    simp only [Op.exec, Except.bind_eq_ok, Except.pure_eq_ok] at h
    obtain ⟨w, h1, rfl⟩ := h
    exact .net ((changeBorder_netOp h1).mono fun b hb => absurd hb.2 (by simp)) rfl
  | addMajorRoute =>
    simp only [Op.exec, Except.bind_eq_ok, Except.pure_eq_ok] at h
    obtain ⟨w1, h1, rfl⟩ := h
    exact .net (.same .refl (appendMajorRoute_same h1)) rfl
  | setForcedRedirection =>
    simp only [Op.exec, Except.bind_eq_ok, Except.pure_eq_ok] at h
    obtain ⟨w, h1, rfl⟩ := h
    exact .net (.same .refl (setForcedRedirection_same h1)) rfl
  | setFloodLevels =>
    simp only [Op.exec, Except.bind_eq_ok, Except.pure_eq_ok] at h
    obtain ⟨w, h1, rfl⟩ := h
    exact .net (.same .refl (setFloodLevels_flooded h1).same) rfl
  | setForecasts =>
    simp only [Op.exec, Except.bind_eq_ok, Except.pure_eq_ok] at h
    obtain ⟨w, h1, rfl⟩ := h
    exact .net (.same .refl (setForecasts_flooded h1).same) rfl
  | closeCamp =>
    simp only [Op.exec, Except.bind_eq_ok, Except.pure_eq_ok] at h
    obtain ⟨w, h1, rfl⟩ := h
    exact .net (.same .refl (closeCamp_same h1)) rfl
  | openCamp =>
    simp only [Op.exec, Except.bind_eq_ok, Except.pure_eq_ok] at h
    obtain ⟨w, h1, rfl⟩ := h
    exact .net (.same .refl (openCamp_same h1)) rfl
  | changeLocationType n ty =>
    simp only [Op.exec] at h
    split at h
    · rename_i w hw
      simp only [Except.ok.injEq] at h
      subst h
      have := changeLocationType_same c e.w n ty
      rw [hw] at this
      exact .net (.same .refl this) rfl
    · simp at h
  | addConflictZone =>
    simp only [Op.exec] at h
    split at h
    · simp only [Except.ok.injEq] at h; exact h ▸ .net .refl rfl
    · obtain ⟨h2, h3⟩ := refresh_eq h
      exact .net (by rw [h2]; exact .same .refl (addConflictLoc_same _ _ _ _ _)) h3
  | removeConflictZone =>
    simp only [Op.exec] at h
    obtain ⟨h2, h3⟩ := refresh_eq h
    exact .net (by rw [h2]; exact .same .refl (removeConflictLoc_same _ _ _ _)) h3
  | setConflictIntensity =>
    simp only [Op.exec] at h
    split at h
    · simp only [Except.ok.injEq] at h; exact h ▸ .net .refl rfl
    · obtain ⟨h2, h3⟩ := refresh_eq h
      exact .net (by rw [h2]; exact .same .refl (setConflictLoc_same _ _ _ _ _)) h3
  | clearLocations =>
    simp only [Op.exec, Except.bind_eq_ok, Except.pure_eq_ok] at h
    obtain ⟨w, h1, rfl⟩ := h
    exact .clear _ rfl h1 rfl
  | setClosures =>
    simp only [Op.exec, Except.ok.injEq] at h
    subst h
    exact .net .refl rfl
  | enactClosures =>
    simp only [Op.exec, Except.bind_eq_ok, Except.pure_eq_ok] at h
    obtain ⟨w, h1, rfl⟩ := h
    exact .net (enactClosures_netOp h1) rfl

theorem exec_inv {c : Cfg} {e e' : Eco} {op : Op} (hi : Inv e.w e.agents) (h : op.exec c e = .ok e') :
    Inv e'.w e'.agents := by
  cases exec_kind h with
  | net h1 h2 => rw [h2]; exact hi.netOp h1
  | addLoc a _ h1 h2 => rw [h2]; exact addLocation_inv hi h1
  | link _ _ _ _ _ _ _ h1 h2 => rw [h2]; exact linkUp_inv hi h1
  | insert e₁ i at' h1 h2 h3 => exact insertAgent_inv (by rw [h2]; exact hi.same h1) h3
  | evolve fuel _ h1 => exact evolve_inv hi h1
  | clear ns _ h1 h2 => rw [h2]; exact clearLocations_inv hi h1

theorem reach_inv {P : Op → Prop} {c : Cfg} {draws : Nat → ℚ} {e : Eco} (h : ReachWith P c draws e) :
    Inv e.w e.agents := by
  induction h with
  | empty => constructor <;> simp [Eco.empty]
  | step op _ _ h ih => exact exec_inv ih h

end Flee
