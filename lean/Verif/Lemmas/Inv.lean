import Verif.Lemmas.Step
import Mathlib.Tactic.Convert

/-!
The invariant of reachable ecosystems and its preservation by changes of the network.
-/

namespace Flee

open Spec

/-- An agent's place exists. -/
def PlaceOK (w : World) : Place → Prop
  | .loc i => i < w.nLoc
  | .gone i => i < w.nLoc
  | .link l => l < w.nLink

/-- Invariant of a world and its agents. -/
structure Inv (w : World) (as : List Agent) : Prop where
  lnk : ∀ i < w.nLoc, ∀ l, l ∈ (w.loc i).links ∨ l ∈ (w.loc i).closedLinks →
    l < w.nLink ∧ (w.link l).start = i
  nodup : ∀ i < w.nLoc, ((w.loc i).links ++ (w.loc i).closedLinks).Nodup
  ends : ∀ l < w.nLink, (w.link l).start < w.nLoc ∧ (w.link l).endp < w.nLoc
  opn : ∀ i < w.nLoc, ∀ l ∈ (w.loc i).links, (w.link l).closed = false
  cls : ∀ i < w.nLoc, ∀ l ∈ (w.loc i).closedLinks, (w.link l).closed = true
  emp : ∀ i < w.nLoc, ∀ l ∈ (w.loc i).closedLinks, agentsOn as l = 0
  places : ∀ a ∈ as, PlaceOK w a.place
  travel : ∀ a ∈ as, TravelOK a
  cntLoc : ∀ i < w.nLoc, (w.loc i).numAgents = agentsAt as i
  cntLink : ∀ l < w.nLink, (w.link l).numAgents = agentsOn as l
  cum : ∀ l < w.nLink, (w.link l).numAgents ≤ (w.link l).cumNumAgents

theorem agentsOn_eq_zero {as : List Agent} {l : Nat} (h : ∀ a ∈ as, a.place ≠ .link l) :
    agentsOn as l = 0 := by
  simp only [agentsOn, List.countP_eq_zero, decide_eq_true_eq]
  exact h

theorem agentsAt_eq_zero {as : List Agent} {i : Nat}
    (h : ∀ a ∈ as, a.place ≠ .loc i ∧ a.place ≠ .gone i) : agentsAt as i = 0 := by
  simp only [agentsAt, List.countP_eq_zero, decide_eq_true_eq, not_or]
  exact h

theorem Inv.fresh_link {w : World} {as : List Agent} (h : Inv w as) : agentsOn as w.nLink = 0 :=
  agentsOn_eq_zero fun a ha hp => by
    have := h.places a ha
    rw [hp] at this
    exact absurd this (lt_irrefl _)

theorem Inv.fresh_loc {w : World} {as : List Agent} (h : Inv w as) : agentsAt as w.nLoc = 0 :=
  agentsAt_eq_zero fun a ha => by
    have := h.places a ha
    constructor <;> intro hp <;> rw [hp] at this <;> exact absurd this (lt_irrefl _)

/-- Two worlds agree on everything the invariant talks about. -/
structure SameNet (w w' : World) : Prop where
  nLoc : w'.nLoc = w.nLoc
  nLink : w'.nLink = w.nLink
  links : ∀ i, (w'.loc i).links = (w.loc i).links
  closedLinks : ∀ i, (w'.loc i).closedLinks = (w.loc i).closedLinks
  locNum : ∀ i, (w'.loc i).numAgents = (w.loc i).numAgents
  start : ∀ l, (w'.link l).start = (w.link l).start
  endp : ∀ l, (w'.link l).endp = (w.link l).endp
  closed : ∀ l, (w'.link l).closed = (w.link l).closed
  dist : ∀ l, (w'.link l).dist = (w.link l).dist
  linkNum : ∀ l, (w'.link l).numAgents = (w.link l).numAgents
  linkCum : ∀ l, (w'.link l).cumNumAgents = (w.link l).cumNumAgents
  names : ∀ i, (w'.loc i).name = (w.loc i).name
  countries : ∀ i, (w'.loc i).country = (w.loc i).country
  time : w'.time = w.time
  speed : ∀ l, (w'.link l).maxMoveSpeed = (w.link l).maxMoveSpeed
  walkProb : ∀ l, (w'.link l).walkProb = (w.link l).walkProb
  dict : ∀ l, (w'.link l).dict = (w.link l).dict

theorem SameNet.refl (w : World) : SameNet w w := by constructor <;> intros <;> rfl

theorem SameNet.trans {w₁ w₂ w₃ : World} (h : SameNet w₁ w₂) (g : SameNet w₂ w₃) : SameNet w₁ w₃ where
  nLoc := g.nLoc.trans h.nLoc
  nLink := g.nLink.trans h.nLink
  links i := (g.links i).trans (h.links i)
  closedLinks i := (g.closedLinks i).trans (h.closedLinks i)
  locNum i := (g.locNum i).trans (h.locNum i)
  start i := (g.start i).trans (h.start i)
  endp i := (g.endp i).trans (h.endp i)
  closed i := (g.closed i).trans (h.closed i)
  dist i := (g.dist i).trans (h.dist i)
  linkNum i := (g.linkNum i).trans (h.linkNum i)
  linkCum i := (g.linkCum i).trans (h.linkCum i)
  names i := (g.names i).trans (h.names i)
  countries i := (g.countries i).trans (h.countries i)
  time := g.time.trans h.time
  speed i := (g.speed i).trans (h.speed i)
  walkProb i := (g.walkProb i).trans (h.walkProb i)
  dict i := (g.dict i).trans (h.dict i)

theorem Inv.same {w w' : World} {as : List Agent} (h : Inv w as) (s : SameNet w w') : Inv w' as := by
  obtain ⟨h1, h2, h3, h4, h5, h6, h7, h8, h9, h10, h11⟩ := h
  constructor
  · intro i hi l hl
    rw [s.links, s.closedLinks] at hl
    rw [s.nLoc] at hi
    rw [s.nLink, s.start]
    exact h1 i hi l hl
  · intro i hi; rw [s.links, s.closedLinks]; exact h2 i (s.nLoc ▸ hi)
  · intro l hl; rw [s.start, s.endp, s.nLoc]; exact h3 l (s.nLink ▸ hl)
  · intro i hi l hl; rw [s.closed]; exact h4 i (s.nLoc ▸ hi) l (s.links i ▸ hl)
  · intro i hi l hl; rw [s.closed]; exact h5 i (s.nLoc ▸ hi) l (s.closedLinks i ▸ hl)
  · intro i hi l hl; exact h6 i (s.nLoc ▸ hi) l (s.closedLinks i ▸ hl)
  · intro a ha
    have := h7 a ha
    revert this
    cases a.place <;> simp only [PlaceOK, s.nLoc, s.nLink] <;> exact id
  · exact h8
  · intro i hi; rw [s.locNum]; exact h9 i (s.nLoc ▸ hi)
  · intro i hi; rw [s.linkNum]; exact h10 i (s.nLink ▸ hi)
  · intro i hi; rw [s.linkNum, s.linkCum]; exact h11 i (s.nLink ▸ hi)

/-- Changing fields of a location that the invariant does not mention. -/
theorem SameNet.setLoc (w : World) (i : Nat) (l : Loc) (h1 : l.links = (w.loc i).links)
    (h2 : l.closedLinks = (w.loc i).closedLinks) (h3 : l.numAgents = (w.loc i).numAgents)
    (h4 : l.name = (w.loc i).name) (h5 : l.country = (w.loc i).country) : SameNet w (w.setLoc i l) := by
  constructor <;> intros <;> simp only [World.setLoc, upd_apply] <;> (try split) <;> simp_all

theorem SameNet.draws (w : World) (d : Nat → ℚ) : SameNet w { w with draws := d } := by
  constructor <;> intros <;> rfl

/-- Removing a link from a location's list of open links. -/
theorem Inv.drop {w : World} {as : List Agent} {x l : Nat} {k₁ k₂ : List Nat} (h : Inv w as)
    (hl : (w.loc x).links = k₁ ++ l :: k₂) : Inv (w.setLoc x { w.loc x with links := k₁ ++ k₂ }) as := by
  obtain ⟨h1, h2, h3, h4, h5, h6, h7, h8, h9, h10, h11⟩ := h
  constructor
  · intro i hi m hm
    have := h1 i hi m
    by_cases hx : i = x
    · subst hx; simp [World.setLoc] at hm; grind [World.setLoc]
    · simp [World.setLoc, hx] at hm ⊢; exact this hm
  · intro i hi
    have := h2 i hi
    by_cases hx : i = x
    · subst hx
      simp only [World.setLoc, upd_same]
      rw [hl] at this
      refine this.sublist ?_
      simp
    · simp [World.setLoc, hx] at this ⊢; exact this
  · exact h3
  · intro i hi m hm
    refine h4 i hi m ?_
    by_cases hx : i = x
    · subst hx; simp [World.setLoc] at hm; rw [hl]; grind
    · simpa [World.setLoc, hx] using hm
  · intro i hi m hm
    refine h5 i hi m ?_
    by_cases hx : i = x
    · subst hx; simpa [World.setLoc] using hm
    · simpa [World.setLoc, hx] using hm
  · intro i hi m hm
    refine h6 i hi m ?_
    by_cases hx : i = x
    · subst hx; simpa [World.setLoc] using hm
    · simpa [World.setLoc, hx] using hm
  · intro a ha
    have := h7 a ha
    revert this
    cases a.place <;> simp [PlaceOK, World.setLoc]
  · exact h8
  · intro i hi
    rw [← h9 i hi]
    by_cases hx : i = x
    · subst hx; simp [World.setLoc]
    · simp [World.setLoc, hx]
  · exact h10
  · exact h11

/-- The world after link `l` of location `x` is closed, with `links` the open links left. -/
def closeAt (w : World) (x l : Nat) (links : List Nat) : World :=
  { w with
    nLink := w.nLink + 1
    link := upd (upd w.link l { w.link l with closed := true }) w.nLink
      { w.link l with closed := true, numAgents := 0 }
    loc := upd w.loc x { w.loc x with closedLinks := (w.loc x).closedLinks ++ [w.nLink], links := links } }

theorem Inv.close {w : World} {as : List Agent} {x l : Nat} {k₁ k₂ : List Nat} (h : Inv w as)
    (hx : x < w.nLoc) (hl : (w.loc x).links = k₁ ++ l :: k₂) : Inv (closeAt w x l (k₁ ++ k₂)) as := by
  have hfresh := h.fresh_link
  obtain ⟨h1, h2, h3, h4, h5, h6, h7, h8, h9, h10, h11⟩ := h
  have hlt : l < w.nLink ∧ (w.link l).start = x := h1 x hx l (by simp [hl])
  have hnd := h2 x hx
  rw [hl] at hnd
  have hmem : ∀ i < w.nLoc, ∀ m, m ∈ ((closeAt w x l (k₁ ++ k₂)).loc i).links →
      m ∈ (w.loc i).links ∧ m ≠ l := by
    intro i hi m hm
    by_cases hix : i = x
    · subst hix
      simp only [closeAt, upd_same] at hm
      refine ⟨by rw [hl]; grind, ?_⟩
      rintro rfl
      grind
    · simp only [closeAt, upd_ne _ _ hix] at hm
      refine ⟨hm, ?_⟩
      rintro rfl
      exact hix ((h1 i hi m (.inl hm)).2.symm.trans hlt.2)
  have hcl : ∀ i < w.nLoc, ∀ m, m ∈ ((closeAt w x l (k₁ ++ k₂)).loc i).closedLinks →
      (m ∈ (w.loc i).closedLinks ∧ m ≠ l) ∨ (i = x ∧ m = w.nLink) := by
    intro i hi m hm
    by_cases hix : i = x
    · subst hix
      simp only [closeAt, upd_same, List.mem_append, List.mem_singleton] at hm
      rcases hm with hm | hm
      · refine .inl ⟨hm, ?_⟩
        rintro rfl
        grind
      · exact .inr ⟨rfl, hm⟩
    · simp only [closeAt, upd_ne _ _ hix] at hm
      refine .inl ⟨hm, ?_⟩
      rintro rfl
      exact hix ((h1 i hi m (.inr hm)).2.symm.trans hlt.2)
  have hlink : ∀ m, m < w.nLink → m ≠ l → (closeAt w x l (k₁ ++ k₂)).link m = w.link m := by
    intro m hm hml
    simp [closeAt, hml, Nat.ne_of_lt hm]
  constructor
  · intro i hi m hm
    rcases hm with hm | hm
    · obtain ⟨ha, hb⟩ := hmem i hi m hm
      have := h1 i hi m (.inl ha)
      exact ⟨Nat.lt_succ_of_lt this.1, by rw [hlink m this.1 hb]; exact this.2⟩
    · rcases hcl i hi m hm with ⟨ha, hb⟩ | ⟨rfl, rfl⟩
      · have := h1 i hi m (.inr ha)
        exact ⟨Nat.lt_succ_of_lt this.1, by rw [hlink m this.1 hb]; exact this.2⟩
      · exact ⟨Nat.lt_succ_self _, by simp [closeAt, hlt.2]⟩
  · intro i hi
    by_cases hix : i = x
    · subst hix
      simp only [closeAt, upd_same]
      have hn : w.nLink ∉ (k₁ ++ l :: k₂) ++ (w.loc i).closedLinks := by
        intro hm
        rw [← hl, List.mem_append] at hm
        exact absurd (h1 i hi _ hm).1 (lt_irrefl _)
      rw [← List.append_assoc, List.nodup_append]
      refine ⟨hnd.sublist (by simp), by simp, ?_⟩
      grind
    · simp only [closeAt, upd_ne _ _ hix]
      exact h2 i hi
  · intro m hm
    simp only [closeAt] at hm ⊢
    by_cases hmn : m = w.nLink
    · subst hmn; simpa using h3 l hlt.1
    · have hm' : m < w.nLink := by omega
      by_cases hml : m = l
      · subst hml; simpa [upd_apply, hmn] using h3 m hm'
      · simpa [upd_apply, hmn, hml] using h3 m hm'
  · intro i hi m hm
    obtain ⟨ha, hb⟩ := hmem i hi m hm
    rw [hlink m (h1 i hi m (.inl ha)).1 hb]
    exact h4 i hi m ha
  · intro i hi m hm
    rcases hcl i hi m hm with ⟨ha, hb⟩ | ⟨rfl, rfl⟩
    · rw [hlink m (h1 i hi m (.inr ha)).1 hb]
      exact h5 i hi m ha
    · simp [closeAt]
  · intro i hi m hm
    rcases hcl i hi m hm with ⟨ha, hb⟩ | ⟨rfl, rfl⟩
    · exact h6 i hi m ha
    · exact hfresh
  · intro a ha
    have := h7 a ha
    revert this
    cases a.place <;> simp only [PlaceOK, closeAt] <;> omega
  · exact h8
  · intro i hi
    rw [← h9 i hi]
    by_cases hix : i = x
    · subst hix; simp [closeAt]
    · simp [closeAt, hix]
  · intro m hm
    simp only [closeAt] at hm ⊢
    by_cases hmn : m = w.nLink
    · subst hmn; simp [hfresh]
    · have hm' : m < w.nLink := by omega
      by_cases hml : m = l
      · subst hml; simpa [upd_apply, hmn] using h10 m hm'
      · simpa [upd_apply, hmn, hml] using h10 m hm'
  · intro m hm
    simp only [closeAt] at hm ⊢
    by_cases hmn : m = w.nLink
    · subst hmn; simp
    · have hm' : m < w.nLink := by omega
      by_cases hml : m = l
      · subst hml; simpa [upd_apply, hmn] using h11 m hm'
      · simpa [upd_apply, hmn, hml] using h11 m hm'

/-- The world after closed link `l` of location `x` is reopened, with `cl` the closed links left. -/
def reopenAt (w : World) (x l : Nat) (cl : List Nat) : World :=
  { w with
    link := upd w.link l { w.link l with closed := false }
    loc := upd w.loc x { w.loc x with links := (w.loc x).links ++ [l], closedLinks := cl } }

theorem Inv.reopen {w : World} {as : List Agent} {x l : Nat} {k₁ k₂ : List Nat} (h : Inv w as)
    (hx : x < w.nLoc) (hl : (w.loc x).closedLinks = k₁ ++ l :: k₂) :
    Inv (reopenAt w x l (k₁ ++ k₂)) as := by
  obtain ⟨h1, h2, h3, h4, h5, h6, h7, h8, h9, h10, h11⟩ := h
  have hlt : l < w.nLink ∧ (w.link l).start = x := h1 x hx l (by simp [hl])
  have hnd := h2 x hx
  rw [hl] at hnd
  have hmem : ∀ i < w.nLoc, ∀ m, m ∈ ((reopenAt w x l (k₁ ++ k₂)).loc i).links →
      (m ∈ (w.loc i).links ∧ m ≠ l) ∨ (i = x ∧ m = l) := by
    intro i hi m hm
    by_cases hix : i = x
    · subst hix
      simp only [reopenAt, upd_same, List.mem_append, List.mem_singleton] at hm
      rcases hm with hm | hm
      · refine .inl ⟨hm, ?_⟩
        rintro rfl
        grind
      · exact .inr ⟨rfl, hm⟩
    · simp only [reopenAt, upd_ne _ _ hix] at hm
      refine .inl ⟨hm, ?_⟩
      rintro rfl
      exact hix ((h1 i hi m (.inl hm)).2.symm.trans hlt.2)
  have hcl : ∀ i < w.nLoc, ∀ m, m ∈ ((reopenAt w x l (k₁ ++ k₂)).loc i).closedLinks →
      m ∈ (w.loc i).closedLinks ∧ m ≠ l := by
    intro i hi m hm
    by_cases hix : i = x
    · subst hix
      simp only [reopenAt, upd_same] at hm
      refine ⟨by rw [hl]; grind, ?_⟩
      rintro rfl
      grind
    · simp only [reopenAt, upd_ne _ _ hix] at hm
      refine ⟨hm, ?_⟩
      rintro rfl
      exact hix ((h1 i hi m (.inr hm)).2.symm.trans hlt.2)
  have hlink : ∀ m, m ≠ l → (reopenAt w x l (k₁ ++ k₂)).link m = w.link m := by
    intro m hml
    simp [reopenAt, hml]
  have hfield : ∀ m, ((reopenAt w x l (k₁ ++ k₂)).link m).start = (w.link m).start ∧
      ((reopenAt w x l (k₁ ++ k₂)).link m).endp = (w.link m).endp ∧
      ((reopenAt w x l (k₁ ++ k₂)).link m).numAgents = (w.link m).numAgents ∧
      ((reopenAt w x l (k₁ ++ k₂)).link m).cumNumAgents = (w.link m).cumNumAgents := by
    intro m
    by_cases hml : m = l
    · subst hml; simp [reopenAt]
    · rw [hlink m hml]; simp
  constructor
  · intro i hi m hm
    rw [(hfield m).1]
    refine h1 i hi m ?_
    rcases hm with hm | hm
    · rcases hmem i hi m hm with ⟨ha, hb⟩ | ⟨rfl, rfl⟩
      · exact .inl ha
      · right; rw [hl]; simp
    · exact .inr (hcl i hi m hm).1
  · intro i hi
    by_cases hix : i = x
    · subst hix
      simp only [reopenAt, upd_same]
      have : ((w.loc i).links ++ [l] ++ (k₁ ++ k₂)).Perm ((w.loc i).links ++ (k₁ ++ l :: k₂)) := by
        rw [List.append_assoc]
        refine List.Perm.append_left _ ?_
        simpa using (List.perm_middle (a := l) (l₁ := k₁) (l₂ := k₂)).symm
      exact this.nodup_iff.mpr hnd
    · simp only [reopenAt, upd_ne _ _ hix]
      exact h2 i hi
  · intro m hm
    rw [(hfield m).1, (hfield m).2.1]
    exact h3 m hm
  · intro i hi m hm
    rcases hmem i hi m hm with ⟨ha, hb⟩ | ⟨rfl, rfl⟩
    · rw [hlink m hb]; exact h4 i hi m ha
    · simp [reopenAt]
  · intro i hi m hm
    obtain ⟨ha, hb⟩ := hcl i hi m hm
    rw [hlink m hb]
    exact h5 i hi m ha
  · intro i hi m hm
    exact h6 i hi m (hcl i hi m hm).1
  · intro a ha
    have := h7 a ha
    revert this
    cases a.place <;> simp only [PlaceOK, reopenAt] <;> exact id
  · exact h8
  · intro i hi
    rw [← h9 i hi]
    by_cases hix : i = x
    · subst hix; simp [reopenAt]
    · simp [reopenAt, hix]
  · intro m hm
    rw [(hfield m).2.2.1]
    exact h10 m hm
  · intro m hm
    rw [(hfield m).2.2.1, (hfield m).2.2.2]
    exact h11 m hm

/-- Any sequence of removals (if `m false`), closures (if `m true`) and reopenings of links, and of
changes that leave the network alone. -/
inductive NetOp (m : Bool → Prop) (w : World) : World → Prop
  | refl : NetOp m w w
  | drop {w' : World} {x l : Nat} {k₁ k₂ : List Nat} : m false → NetOp m w w' → x < w'.nLoc →
      (w'.loc x).links = k₁ ++ l :: k₂ →
      NetOp m w (w'.setLoc x { w'.loc x with links := k₁ ++ k₂ })
  | close {w' : World} {x l : Nat} {k₁ k₂ : List Nat} : m true → NetOp m w w' → x < w'.nLoc →
      (w'.loc x).links = k₁ ++ l :: k₂ → NetOp m w (closeAt w' x l (k₁ ++ k₂))
  | reopen {w' : World} {x l : Nat} {k₁ k₂ : List Nat} : NetOp m w w' → x < w'.nLoc →
      (w'.loc x).closedLinks = k₁ ++ l :: k₂ → NetOp m w (reopenAt w' x l (k₁ ++ k₂))
  | same {w' w'' : World} : NetOp m w w' → SameNet w' w'' → NetOp m w w''

theorem NetOp.trans {m : Bool → Prop} {w₁ w₂ w₃ : World} (h : NetOp m w₁ w₂) (g : NetOp m w₂ w₃) :
    NetOp m w₁ w₃ := by
  induction g with
  | refl => exact h
  | drop hm _ hx hl ih => exact .drop hm ih hx hl
  | close hm _ hx hl ih => exact .close hm ih hx hl
  | reopen _ hx hl ih => exact .reopen ih hx hl
  | same _ hs ih => exact .same ih hs

theorem NetOp.mono {m n : Bool → Prop} {w w' : World} (hmn : ∀ b, m b → n b) (g : NetOp m w w') :
    NetOp n w w' := by
  induction g with
  | refl => exact .refl
  | drop hm _ hx hl ih => exact .drop (hmn _ hm) ih hx hl
  | close hm _ hx hl ih => exact .close (hmn _ hm) ih hx hl
  | reopen _ hx hl ih => exact .reopen ih hx hl
  | same _ hs ih => exact .same ih hs

theorem Inv.netOp {m : Bool → Prop} {w w' : World} {as : List Agent} (h : Inv w as) (g : NetOp m w w') :
    Inv w' as := by
  induction g with
  | refl => exact h
  | drop _ _ hx hl ih => exact ih.drop hl
  | close _ _ hx hl ih => exact ih.close hx hl
  | reopen _ hx hl ih => exact ih.reopen hx hl
  | same _ hs ih => exact ih.same hs

theorem removeStep_keep {x : Nat} {endp : PyStr} {co : Bool} {w : World} {keep : List Nat} {rem : Bool}
    {l : Nat} (h : (w.epName l).oid ≠ endp.oid) :
    removeStep x endp co (w, keep, rem) l = (w, keep ++ [l], rem) := by
  simp [removeStep, h]

theorem removeStep_drop {x : Nat} {endp : PyStr} {w : World} {keep : List Nat} {rem : Bool}
    {l : Nat} (h : (w.epName l).oid = endp.oid) :
    removeStep x endp false (w, keep, rem) l = (w, keep, true) := by
  simp [removeStep, h]

theorem removeStep_close {x : Nat} {endp : PyStr} {w : World} {keep : List Nat} {rem : Bool}
    {l : Nat} (h : (w.epName l).oid = endp.oid) :
    removeStep x endp true (w, keep, rem) l = (closeAt w x l (w.loc x).links, keep, true) := by
  simp [removeStep, h, World.setLoc, World.newLink, World.setLink, closeAt]

theorem reopenStep_keep {x : Nat} {endp : PyStr} {w : World} {keep : List Nat} {rem : Bool}
    {l : Nat} (h : (w.epName l).oid ≠ endp.oid) :
    reopenStep x endp (w, keep, rem) l = (w, keep ++ [l], rem) := by
  simp [reopenStep, h]

theorem reopenStep_reopen {x : Nat} {endp : PyStr} {w : World} {keep : List Nat} {rem : Bool}
    {l : Nat} (h : (w.epName l).oid = endp.oid) :
    reopenStep x endp (w, keep, rem) l = (reopenAt w x l (w.loc x).closedLinks, keep, true) := by
  simp [reopenStep, h, World.setLoc, World.setLink, reopenAt]

theorem removeFold {m : Bool → Prop} {w₀ : World} {x : Nat} {endp : PyStr} {co : Bool} (hm : m co) :
    ∀ (ls : List Nat) (w : World) (keep : List Nat) (rem : Bool), x < w.nLoc →
      NetOp m w₀ (w.setLoc x { w.loc x with links := keep ++ ls }) →
      ∀ r, r = ls.foldl (removeStep x endp co) (w, keep, rem) →
      NetOp m w₀ (r.1.setLoc x { r.1.loc x with links := r.2.1 })
  | [], w, keep, rem, _, h, r, hr => by subst hr; simpa using h
  | l :: ls, w, keep, rem, hx, h, r, hr => by
    rw [List.foldl_cons] at hr
    by_cases ho : (w.epName l).oid = endp.oid
    · cases co with
      | true =>
        rw [removeStep_close ho] at hr
        refine removeFold hm ls (closeAt w x l (w.loc x).links) keep true hx ?_ r hr
        have := NetOp.close (x := x) (l := l) (k₁ := keep) (k₂ := ls) hm h
          (by simpa [World.setLoc] using hx) (by simp [World.setLoc])
        convert this using 1
        simp [World.setLoc, closeAt]
      | false =>
        rw [removeStep_drop ho] at hr
        refine removeFold hm ls w keep true hx ?_ r hr
        have := NetOp.drop (x := x) (l := l) (k₁ := keep) (k₂ := ls) hm h
          (by simpa [World.setLoc] using hx) (by simp [World.setLoc])
        convert this using 1
        simp [World.setLoc]
    · rw [removeStep_keep ho] at hr
      exact removeFold hm ls w (keep ++ [l]) rem hx (by simpa using h) r hr

theorem reopenFold {m : Bool → Prop} {w₀ : World} {x : Nat} {endp : PyStr} :
    ∀ (ls : List Nat) (w : World) (keep : List Nat) (rem : Bool), x < w.nLoc →
      NetOp m w₀ (w.setLoc x { w.loc x with closedLinks := keep ++ ls }) →
      ∀ r, r = ls.foldl (reopenStep x endp) (w, keep, rem) →
      NetOp m w₀ (r.1.setLoc x { r.1.loc x with closedLinks := r.2.1 })
  | [], w, keep, rem, _, h, r, hr => by subst hr; simpa using h
  | l :: ls, w, keep, rem, hx, h, r, hr => by
    rw [List.foldl_cons] at hr
    by_cases ho : (w.epName l).oid = endp.oid
    · rw [reopenStep_reopen ho] at hr
      refine reopenFold ls (reopenAt w x l (w.loc x).closedLinks) keep true hx ?_ r hr
      have := NetOp.reopen (x := x) (l := l) (k₁ := keep) (k₂ := ls) h
        (by simpa [World.setLoc] using hx) (by simp [World.setLoc])
      convert this using 1
      simp [World.setLoc, reopenAt]
    · rw [reopenStep_keep ho] at hr
      exact reopenFold ls w (keep ++ [l]) rem hx (by simpa using h) r hr

theorem checkIdx_ok {w : World} {i : Nat} {u : Unit} (h : w.checkIdx i = .ok u) : i < w.nLoc := by
  unfold World.checkIdx at h
  split at h
  · assumption
  · simp at h

theorem removeLink1_netOp {w w' : World} {s e : PyStr} {co b : Bool}
    (h : removeLink1 w s e co = .ok (w', b)) : NetOp (· = co) w w' := by
  simp only [removeLink1, Except.bind_eq_ok, Except.pure_eq_ok, Prod.mk.injEq] at h
  obtain ⟨u, hu, rfl, -⟩ := h
  have := removeFold (m := (· = co)) (w₀ := w) (endp := e) (co := co) rfl (w.loc (w.nameIdx s.val)).links w [] false
    (checkIdx_ok hu) (by simpa [World.setLoc] using NetOp.refl) _ rfl
  exact this

theorem reopenLink1_netOp {m : Bool → Prop} {w w' : World} {s e : PyStr} {b : Bool}
    (h : reopenLink1 w s e = .ok (w', b)) : NetOp m w w' := by
  simp only [reopenLink1, Except.bind_eq_ok, Except.pure_eq_ok, Prod.mk.injEq] at h
  obtain ⟨u, hu, rfl, -⟩ := h
  have := reopenFold (m := m) (w₀ := w) (endp := e) (w.loc (w.nameIdx s.val)).closedLinks w [] false
    (checkIdx_ok hu) (by simpa [World.setLoc] using NetOp.refl) _ rfl
  exact this

theorem removeLink_netOp {w w' : World} {s e : PyStr} {tw co b : Bool}
    (h : removeLink w s e tw co = .ok (w', b)) : NetOp (· = co) w w' := by
  unfold removeLink at h
  split at h <;> exact removeLink1_netOp h

theorem closeLink_netOp {w w' : World} {s e : PyStr} {tw b : Bool}
    (h : closeLink w s e tw = .ok (w', b)) : NetOp (· = true) w w' := removeLink_netOp h

theorem reopenLink_netOp {m : Bool → Prop} {w w' : World} {s e : PyStr} {tw b : Bool}
    (h : reopenLink w s e tw = .ok (w', b)) : NetOp m w w' := by
  unfold reopenLink at h
  split at h <;> exact reopenLink1_netOp h

theorem closeLocLoop_netOp {i : Nat} {dir : Dir} : ∀ {fuel : Nat} {w w' : World} {ls : List Nat} {j : Nat},
    closeLocLoop i dir fuel w ls j = .ok w' → NetOp (· = true) w w'
  | 0, w, w', ls, j, h => by simp [closeLocLoop] at h
  | fuel + 1, w, w', ls, j, h => by
    unfold closeLocLoop at h
    split at h
    · simp only [Except.ok.injEq] at h
      exact h ▸ .refl
    · simp only [Except.bind_eq_ok] at h
      obtain ⟨⟨w1, b1⟩, h1, h⟩ := h
      refine (closeLink_netOp h1).trans ?_
      split at h
      · simp only [Except.bind_eq_ok] at h
        obtain ⟨⟨w2, b2⟩, h2, h⟩ := h
        exact (closeLink_netOp h2).trans (closeLocLoop_netOp h)
      · exact closeLocLoop_netOp h

theorem reopenLocLoop_netOp {m : Bool → Prop} {i : Nat} {dir : Dir} : ∀ {fuel : Nat} {w w' : World} {ls : List Nat} {j : Nat},
    reopenLocLoop i dir fuel w ls j = .ok w' → NetOp m w w'
  | 0, w, w', ls, j, h => by simp [reopenLocLoop] at h
  | fuel + 1, w, w', ls, j, h => by
    unfold reopenLocLoop at h
    split at h
    · simp only [Except.ok.injEq] at h
      exact h ▸ .refl
    · simp only [Except.bind_eq_ok] at h
      obtain ⟨⟨w1, b1⟩, h1, h⟩ := h
      refine (reopenLink_netOp h1).trans ?_
      split at h
      · simp only [Except.bind_eq_ok] at h
        obtain ⟨⟨w2, b2⟩, h2, h⟩ := h
        refine (reopenLink_netOp h2).trans ?_
        dsimp only at h
        split at h <;> exact reopenLocLoop_netOp h
      · exact reopenLocLoop_netOp h

theorem foldlM_netOp {m : Bool → Prop} {α : Type} {f : World → α → Except Err World}
    (hf : ∀ w a w', f w a = .ok w' → NetOp m w w') : ∀ {l : List α} {w w' : World},
    l.foldlM f w = .ok w' → NetOp m w w'
  | [], w, w', h => by
    simp only [List.foldlM_nil, Except.pure_eq_ok] at h
    exact h ▸ .refl
  | a :: l, w, w', h => by
    simp only [List.foldlM_cons, Except.bind_eq_ok] at h
    obtain ⟨w1, h1, h⟩ := h
    exact (hf _ _ _ h1).trans (foldlM_netOp hf h)

theorem closeLocation_netOp {fuel : Nat} {w w' : World} {n : String} {tw b : Bool}
    (h : closeLocation fuel w n tw = .ok (w', b)) : NetOp (· = true) w w' := by
  simp only [closeLocation, Except.bind_eq_ok, Except.pure_eq_ok, Prod.mk.injEq] at h
  obtain ⟨w1, h1, rfl, -⟩ := h
  exact foldlM_netOp (fun _ _ _ => closeLocLoop_netOp) h1

theorem reopenLocation_netOp {m : Bool → Prop} {fuel : Nat} {w w' : World} {n : String} {tw b : Bool}
    (h : reopenLocation fuel w n tw = .ok (w', b)) : NetOp m w w' := by
  simp only [reopenLocation, Except.bind_eq_ok, Except.pure_eq_ok, Prod.mk.injEq] at h
  obtain ⟨w1, h1, rfl, -⟩ := h
  exact foldlM_netOp (fun _ _ _ => reopenLocLoop_netOp) h1

theorem borderLoop_netOp {i : Nat} {dest : String} {re : Bool} :
    ∀ {fuel : Nat} {w w' : World} {ls : List Nat} {j : Nat},
    borderLoop i dest re fuel w ls j = .ok w' → NetOp (fun b => b = true ∧ re = false) w w'
  | 0, w, w', ls, j, h => by simp [borderLoop] at h
  | fuel + 1, w, w', ls, j, h => by
    unfold borderLoop at h
    split at h
    · simp only [Except.ok.injEq] at h
      exact h ▸ .refl
    · split at h
      · split at h <;> simp only [Except.bind_eq_ok] at h <;> obtain ⟨⟨w1, b1⟩, h1, h⟩ := h
        · refine (reopenLink_netOp h1).trans ?_
          dsimp only at h
          split at h <;> exact borderLoop_netOp h
        · rename_i hre
          refine ((closeLink_netOp h1).mono fun b hb => ⟨hb, by simpa using hre⟩).trans ?_
          dsimp only at h
          split at h <;> exact borderLoop_netOp h
      · exact borderLoop_netOp h

theorem changeBorder1_netOp {fuel : Nat} {w w' : World} {s d : String} {re : Bool}
    (h : changeBorder1 fuel w s d re = .ok w') : NetOp (fun b => b = true ∧ re = false) w w' := by
  refine foldlM_netOp (fun w i w' h => ?_) h
  split at h
  · exact borderLoop_netOp h
  · simp only [Except.pure_eq_ok] at h
    exact h ▸ .refl

theorem changeBorder_netOp {fuel : Nat} {w w' : World} {s d : String} {tw re : Bool}
    (h : changeBorder fuel w s d tw re = .ok w') : NetOp (fun b => b = true ∧ re = false) w w' := by
  simp only [changeBorder, Except.bind_eq_ok] at h
  obtain ⟨w1, h1, h⟩ := h
  refine (changeBorder1_netOp h1).trans ?_
  split at h
  · exact changeBorder1_netOp h
  · simp only [Except.pure_eq_ok] at h
    exact h ▸ .refl

end Flee
