import Verif.Lemmas.Chances

/-!
Lemmas on days that pass without errors.
-/

namespace Flee.Days

open Spec Alone

variable {c : Cfg}

/-- A state from which time steps return, with `fuel` for them. -/
structure Going (c : Cfg) (fuel : Nat) (S δ D : ℚ) (e : Eco) : Prop where
  inv : Inv e.w e.agents
  stamp : ∀ i < e.w.nLoc, (e.w.loc i).timeOfConflict ≤ e.w.time
  known : ∀ a ∈ e.agents, Known e.w a.route
  rested : ∀ a ∈ e.agents, Rested e.w a
  ordinary : Ordinary e.w
  go : SomewhereToGo e.w
  islands : NeedsLinks c → NoIslands e.w
  most : AtMost c e.w S
  low : ∀ l < e.w.nLink, δ ≤ (e.w.link l).dist
  high : ∀ l < e.w.nLink, (e.w.link l).dist ≤ D
  pos : 0 ≤ D
  some : 1 ≤ fuel
  enough : S + D ≤ fuel * δ

theorem Going.drawing {fuel : Nat} {S δ D : ℚ} {e : Eco} (h : Going c fuel S δ D e) (s : Nat → ℚ) : Going c fuel S δ D (drawing e s) where
  inv := inv_wd h.inv s
  stamp := h.stamp
  known := h.known
  rested := fun a ha => ⟨(h.rested a ha).moved, (h.rested a ha).within⟩
  ordinary := ⟨h.ordinary.length, h.ordinary.dry⟩
  go := h.go
  islands := h.islands
  most := ⟨h.most.1, h.most.2, h.most.3⟩
  low := h.low
  high := h.high
  pos := h.pos
  some := h.some
  enough := h.enough

theorem Going.evolve (hc : PlainRules c) {fuel : Nat} {S δ D : ℚ} {e : Eco} (h : Going c fuel S δ D e) :
    ∃ e', e.evolve c fuel = .ok e' ∧ Going c fuel S δ D e' := by
  obtain ⟨e', he⟩ := (evolve_ok_of hc h.inv h.stamp h.known h.ordinary h.go h.islands fuel).resolve_left
    (evolve_fuel h.inv h.rested h.most h.low h.high h.pos h.some h.enough)
  refine ⟨e', he, ?_⟩
  obtain ⟨w1, h1, hr, hco, hf⟩ := evolve_days h.inv he
  have loc : ∀ {α : Type} (f : Loc → α), (∀ l, f l.core = f l) → (∀ l, f l.fixed = f l) → ∀ i, f (e'.w.loc i) = f (e.w.loc i) := fun f k1 k2 i => by
    rw [← k1, hco.locCore i, k1]
    show f (w1.loc i) = _
    rw [← k2, hr.loc i, k2]
  have lnk : ∀ {α : Type} (f : Lnk → α), (∀ l, f l.core = f l) → ∀ l, f (e'.w.link l) = f (e.w.link l) := fun f k1 l => by
    rw [← k1, hco.linkCore l, k1]
    show f (w1.link l) = _
    rw [hr.link]
  have hn : e'.w.nLoc = e.w.nLoc := hco.nLoc.trans hr.nLoc
  have hm : e'.w.nLink = e.w.nLink := hco.nLink.trans hr.nLink
  have ht : e'.w.time = e.w.time + 1 := hco.time.trans (congrArg (· + 1) hr.time)
  have hd := lnk Lnk.dist fun _ => rfl
  have hl := loc Loc.links (fun _ => rfl) fun _ => rfl
  have mem : ∀ a' ∈ e'.agents, ∃ a ∈ e.agents, ∃ b d, AgentDay c fuel w1 a b d a' := fun a' ha' => by
    obtain ⟨k, hk⟩ := List.mem_iff_getElem?.1 ha'
    obtain ⟨a, ha, hday⟩ := forall₂_get hf.flip hk
    exact ⟨a, List.mem_of_getElem? ha, hday⟩
  exact {
    inv := evolve_inv h.inv he
    stamp := fun i hi => by
      rw [loc Loc.timeOfConflict (fun _ => rfl) (fun _ => rfl) i, ht]
      have := h.stamp i (hn ▸ hi)
      push_cast
      omega
    known := fun a' ha' => by
      obtain ⟨a, ha, b, d, hday⟩ := mem a' ha'
      have hnames : ∀ i, (w1.loc i).name = (e.w.loc i).name := fun i => (congrArg Loc.name (hr.loc i) :)
      have hw1 : WellFormed w1 := (h.inv.same hr.same).wellFormed
      have hk1 : Known w1 a.route := fun x hx => by
        obtain ⟨i, hi, e⟩ := h.known a ha x hx
        exact ⟨i, hr.nLoc ▸ hi, by rw [hnames, e]⟩
      have hp1 : PlaceOK w1 a.place := hr.place (h.inv.places a ha)
      obtain ⟨v, v', hv, g1⟩ := hday.decide
      obtain ⟨u, u', hu, g2⟩ := hday.travel
      have hok := evolveOne_step g1 (h.inv.travel a ha)
      have hk2 : Known w1 b.route := (evolveOne_known hc.search (hw1.core hv) (hp1.coreEq hv) (hk1.core hv) g1).core hv.symm
      have hp2 : PlaceOK w1 b.place := (evolveOne_placeOK (hw1.core hv) (hp1.coreEq hv) g1).coreEq hv.symm
      have hk3 : Known w1 d.route :=
        (finishOne_known hc.search (hw1.core hu) (hok.2.2.ok (h.inv.travel a ha)) (hp2.coreEq hu) (hk2.core hu) g2).core hu.symm
      have hk4 : a'.route = d.route := by
        rcases hday.sink with h | ⟨i, -, -, -, h⟩ <;> rw [h] <;> rfl
      intro x hx
      obtain ⟨i, hi, ex⟩ := hk3 x (hk4 ▸ hx)
      exact ⟨i, hco.nLoc ▸ hi, by rw [ex, hco.name]⟩
    rested := fun a' ha' => by
      obtain ⟨a, ha, b, d, hday⟩ := mem a' ha'
      by_cases hal : ∀ i, a.place ≠ .gone i
      · obtain ⟨-, hw⟩ := hday.trip (h.inv.travel a ha) hal
        rcases hday.sink with rfl | ⟨i, -, -, -, rfl⟩
        · exact ⟨rfl, fun l hl => by have := hw l hl; rw [hr.link] at this; rw [hd]; exact this⟩
        · exact ⟨rfl, by simp [Within]⟩
      · push Not at hal
        obtain ⟨i, hg⟩ := hal
        obtain ⟨-, rfl⟩ := hday.gone hg
        exact ⟨rfl, fun l hl => by cases hg.symm.trans hl⟩
    ordinary := ⟨fun l hl => by rw [hd]; exact h.ordinary.length l (hm ▸ hl), fun i hi => by
      rw [loc Loc.floodZone (fun _ => rfl) (fun _ => rfl) i, loc Loc.floodLevel (fun _ => rfl) (fun _ => rfl) i]
      exact h.ordinary.dry i (hn ▸ hi)⟩
    go := fun i hi hne => by
      rw [hl] at hne ⊢
      obtain ⟨l, k1, k2⟩ := h.go i (hn ▸ hi) hne
      refine ⟨l, k1, ?_⟩
      rw [loc Loc.marker (fun _ => rfl) (fun _ => rfl), lnk Lnk.endp fun _ => rfl]
      exact k2
    islands := fun k i hi => by rw [hl]; exact h.islands k i (hn ▸ hi)
    most := ⟨h.most.1, h.most.2, fun l hl s hs => h.most.3 l (hm ▸ hl) s (by rw [← lnk Lnk.maxMoveSpeed (fun _ => rfl), hs])⟩
    low := fun l hl => by rw [hd]; exact h.low l (hm ▸ hl)
    high := fun l hl => by rw [hd]; exact h.high l (hm ▸ hl)
    pos := h.pos
    some := h.some
    enough := h.enough }

theorem Going.days (hc : PlainRules c) {fuel : Nat} {S δ D : ℚ} : ∀ (n : Nat) {e : Eco}, Going c fuel S δ D e →
    ∃ e', Spec.days c fuel n e = .ok e' ∧ Going c fuel S δ D e'
  | 0, e, h => ⟨e, rfl, h⟩
  | n + 1, e, h => by
    obtain ⟨e1, h1, h2⟩ := h.evolve hc
    obtain ⟨e', h3, h4⟩ := Going.days hc n h2
    refine ⟨e', ?_, h4⟩
    show (e.evolve c fuel).bind _ = _
    rw [h1]
    exact h3

/-- Any number of days returns, whatever the random numbers are. -/
theorem always_days (hc : PlainRules c) {draws : Nat → ℚ} {e : Eco} (h : Reach c draws e) (ho : Ordinary e.w) (hg : SomewhereToGo e.w)
    (hn : NeedsLinks c → NoIslands e.w) : ∃ m, ∀ fuel ≥ m, ∀ n s, ∃ e', Spec.days c fuel n (Spec.drawing e s) = .ok e' := by
  obtain ⟨S, hS⟩ := exists_bound (f := fun l => (e.w.link l).maxMoveSpeed) e.w.nLink
  obtain ⟨D, hD0, hD⟩ := exists_le (f := fun l => (e.w.link l).dist) e.w.nLink
  obtain ⟨δ, hδ0, hδ⟩ := exists_pos (f := fun l => (e.w.link l).dist) e.w.nLink ho.length
  have hat : AtMost c e.w (max S (max c.maxMoveSpeed c.maxWalkSpeed)) :=
    ⟨le_max_of_le_right (le_max_left _ _), le_max_of_le_right (le_max_right _ _),
      fun l hl s hs => le_max_of_le_left (hS l hl s hs)⟩
  generalize max S (max c.maxMoveSpeed c.maxWalkSpeed) = T at hat
  obtain ⟨m, hm⟩ := exists_nat_gt ((T + D) / δ)
  refine ⟨m + 1, fun fuel hf n s => ?_⟩
  have hfuel : T + D ≤ (fuel : ℚ) * δ := by
    rw [div_lt_iff₀ hδ0] at hm
    have : (m : ℚ) ≤ fuel := by exact_mod_cast (by omega : m ≤ fuel)
    nlinarith
  have hG : Going c fuel T δ D e := ⟨reach_inv h, fun i hi => reach_stamp h i hi, fun a ha => reach_known hc.search h a ha, fun a ha => rested h a ha,
    ho, hg, hn, hat, hδ, hD, hD0, by omega, hfuel⟩
  obtain ⟨e', he, -⟩ := (hG.drawing s).days hc n
  exact ⟨e', he⟩

end Flee.Days
