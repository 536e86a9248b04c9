import Verif.Lemmas.Search
import Verif.Lemmas.Flood
import Verif.Spec.Locality

/-!
Route choice looks at nothing but what is in view.
-/

namespace Flee

open Spec

variable {c : Cfg} {v w : World}

theorem endPointScore_face {a : Agent} {l l' : Loc} (h : face l' = face l) (ht : v.time = w.time) (hp : v.coords a.place = w.coords a.place) :
    c.endPointScore v a l' = c.endPointScore w a l := by
  have h1 : l'.score = l.score := (congrArg Loc.score h :)
  have h2 : l'.y = l.y := (congrArg Loc.y h :)
  have h3 : l'.x = l.x := (congrArg Loc.x h :)
  have h4 : l'.floodLevel = l.floodLevel := (congrArg Loc.floodLevel h :)
  have h5 : l'.forecast = l.forecast := (congrArg Loc.forecast h :)
  have h6 : l'.camp = l.camp := (congrArg Loc.camp h :)
  have h7 : l'.conflict = l.conflict := (congrArg Loc.conflict h :)
  have h8 : l'.pop = l.pop := (congrArg Loc.pop h :)
  have h9 : forecastLevel l' = forecastLevel l := by
    funext d
    simp only [forecastLevel, h5]
  simp only [Cfg.endPointScore, homeFactor, floodFactor, levelFactor, forecastFactor, kindFactor, popFactor, h1, h2, h3, h4, h6, h7, h8, h9,
    ht, hp]

theorem candidateWeight_face {s : ℚ} {l l' : Loc} (h : face l' = face l) (dist prior : ℚ) :
    candidateWeight c s l' dist prior = candidateWeight c s l dist prior := by
  have h1 : l'.capacity = l.capacity := (congrArg Loc.capacity h :)
  have h2 : l'.numAgents = l.numAgents := (congrArg Loc.numAgents h :)
  simp only [candidateWeight, getCapMultiplier, h1, h2]

/-- Links that may be looked at with some number of steps, when the worlds look the same along them. -/
structure Looks (c : Cfg) (v w : World) (A : Nat → Int → Prop) : Prop where
  endp : ∀ l s, A l s → (v.link l).endp = (w.link l).endp
  dist : ∀ l s, A l s → (v.link l).dist = (w.link l).dist
  face : ∀ l s, A l s → face (v.loc (w.link l).endp) = face (w.loc (w.link l).endp)
  links : ∀ l s, A l s → c.awareness > stepAt w l s → (v.loc (w.link l).endp).links = (w.loc (w.link l).endp).links
  next : ∀ l s, A l s → c.awareness > stepAt w l s → ∀ m ∈ (w.loc (w.link l).endp).links, A m (stepAt w l s + 1)

theorem Looks.name {A : Nat → Int → Prop} (h : Looks c v w A) {l : Nat} {s : Int} (hl : A l s) : (v.epName l).val = (w.epName l).val := by
  rw [World.epName, World.epName, h.endp l s hl]
  exact (congrArg (fun l : Loc => l.name.val) (h.face l s hl) :)

theorem Looks.marker {A : Nat → Int → Prop} (h : Looks c v w A) {l : Nat} {s : Int} (hl : A l s) :
    (v.loc (v.link l).endp).marker = (w.loc (w.link l).endp).marker := by
  rw [h.endp l s hl]
  exact (congrArg Loc.marker (h.face l s hl) :)

theorem foldlM_agrees {α β : Type} {f g : β → α → Except Err β} : ∀ {l : List α} {b : β}, (∀ a ∈ l, ∀ b, f b a = g b a) →
    l.foldlM f b = l.foldlM g b
  | [], _, _ => rfl
  | a :: l, b, h => by
    rw [List.foldlM_cons, List.foldlM_cons, h a (by simp)]
    cases g b a with
    | error e => rfl
    | ok x => exact foldlM_agrees fun a ha => h a (by simp [ha])

theorem linkWeight_looks {A : Nat → Int → Prop} (h : Looks c v w A) {score score' : Loc → Except Err ℚ}
    (hs : ∀ l l', Spec.face l' = Spec.face l → score' l' = score l) : ∀ {fuel l : Nat} {prior : ℚ} {origin : List String} {step : Int},
    A l step → linkWeight c v score' fuel l prior origin step = linkWeight c w score fuel l prior origin step
  | 0, _, _, _, _, _ => rfl
  | fuel + 1, l, prior, origin, step, hl => by
    have e1 := h.endp l step hl
    have e2 := h.dist l step hl
    have e3 := h.face l step hl
    have hm := h.marker hl
    have hn : (v.loc (w.link l).endp).name.val = (w.loc (w.link l).endp).name.val := (congrArg (fun l : Loc => l.name.val) e3 :)
    have hown : ownCandidate c v score' l prior origin = ownCandidate c w score l prior origin := by
      simp only [ownCandidate, hm]
      rw [e1, e2, hs _ _ e3]
      simp only [candidateWeight_face e3]
      rw [hn]
    unfold linkWeight
    rw [hown]
    cases ownCandidate c w score l prior origin with
    | error e => rfl
    | ok base =>
      simp only [bind, Except.bind, hm]
      rw [show (if (w.loc (w.link l).endp).marker = true then step - 1 else step) = stepAt w l step from rfl]
      by_cases ha : c.awareness > stepAt w l step
      · rw [if_pos ha, if_pos ha, e1, h.links l step hl ha]
        refine foldlM_agrees fun m hm b => ?_
        have hA := h.next l step hl ha m hm
        rw [h.name hA, e2, linkWeight_looks h hs hA, hn]
      · rw [if_neg ha, if_neg ha]

theorem allRoutes_looks {A : Nat → Int → Prop} (h : Looks c v w A) {a : Agent} {i : Nat} (ht : v.time = w.time)
    (hp : v.coords a.place = w.coords a.place) (hv : WellFormed v) (hw : WellFormed w) (hiv : i < v.nLoc) (hiw : i < w.nLoc)
    (hn : (v.loc i).name.val = (w.loc i).name.val) (hr : (v.loc i).links = (w.loc i).links) (hA : ∀ l ∈ (w.loc i).links, A l 1) :
    allRoutes c v (c.endPointScore v a) i = allRoutes c w (c.endPointScore w a) i := by
  unfold allRoutes
  rw [hr, hn]
  refine foldlM_agrees fun l hl b => ?_
  have hlw := hw.links i hiw l hl
  have hlv := hv.links i hiv l (hr ▸ hl)
  have f1 : linkWeight c v (c.endPointScore v a) (max v.searchFuel w.searchFuel) l 0 [(w.loc i).name.val] 1 =
      linkWeight c v (c.endPointScore v a) v.searchFuel l 0 [(w.loc i).name.val] 1 :=
    linkWeight_more (le_max_left _ _) (linkWeight_fuel (endPointScore_ne c v a) hv hlv (searchFuel_ok v _ l))
  have f2 : linkWeight c w (c.endPointScore w a) (max v.searchFuel w.searchFuel) l 0 [(w.loc i).name.val] 1 =
      linkWeight c w (c.endPointScore w a) w.searchFuel l 0 [(w.loc i).name.val] 1 :=
    linkWeight_more (le_max_right _ _) (linkWeight_fuel (endPointScore_ne c w a) hw hlw (searchFuel_ok w _ l))
  rw [← f1, ← f2, linkWeight_looks h (fun l l' e => endPointScore_face e ht hp) (hA l hl)]

theorem selectRoute_looks {A : Nat → Int → Prop} (h : Looks c v w A) {a : Agent} {i : Nat} (hf : c.fixedRoutes = false)
    (ht : v.time = w.time) (hd : v.draws = w.draws) (hp : v.coords a.place = w.coords a.place) (hv : WellFormed v) (hw : WellFormed w)
    (hiv : i < v.nLoc) (hiw : i < w.nLoc) (hn : (v.loc i).name.val = (w.loc i).name.val) (hr : (v.loc i).links = (w.loc i).links)
    (hA : ∀ l ∈ (w.loc i).links, A l 1) :
    (selectRoute c v a i).map (fun r => (r.1, r.2.draws)) = (selectRoute c w a i).map (fun r => (r.1, r.2.draws)) := by
  have hc : routeCandidates c v a i = routeCandidates c w a i := by
    simp only [routeCandidates, hf, Bool.false_eq_true, if_false, allRoutes_looks h ht hp hv hw hiv hiw hn hr hA]
  have h1 : v.draw.1 = w.draw.1 := by simp only [World.draw, hd]
  have h2 : v.draw.2.draws = w.draw.2.draws := by simp only [World.draw, hd]
  unfold selectRoute
  rw [hc, hr, h1]
  dsimp only
  split
  · split
    · rfl
    · simp only [Except.map, h2]
  · split
    · rfl
    · split
      · simp only [Except.map, hd]
      · split
        · rfl
        · simp only [Except.map, h2]
        · split
          · rfl
          · simp only [Except.map, h2]

/-! ### Walks -/

theorem walk_snoc : ∀ {ls : List Nat} {i l : Nat}, Walk w i (ls ++ [l]) ↔ Walk w i ls ∧ l ∈ (w.loc ((stops w ls).getLastD i)).links
  | [], i, l => by simp [Walk, stops]
  | m :: ls, i, l => by
    simp only [List.cons_append, Walk, walk_snoc (ls := ls), stops, List.map_cons, List.getLastD_cons, and_assoc]

theorem realStops_snoc (ls : List Nat) (l : Nat) :
    realStops w (ls ++ [l]) = realStops w ls + if (w.loc (w.link l).endp).marker then 0 else 1 := by
  simp only [realStops, stops, List.map_append, List.countP_append, List.map_cons, List.map_nil, List.countP_cons, List.countP_nil]
  cases (w.loc (w.link l).endp).marker <;> rfl

theorem Spec.SameView.looks {i : Nat} (h : SameView v w c.awareness i) :
    Looks c v w fun l s => ∃ ls, InView w c.awareness i (ls ++ [l]) ∧ s = realStops w ls + 1 := by
  have hs : ∀ {ls : List Nat} {l : Nat} {s : Int}, s = realStops w ls + 1 → stepAt w l s = realStops w (ls ++ [l]) := by
    intro ls l s e
    rw [realStops_snoc, e]
    unfold stepAt
    cases (w.loc (w.link l).endp).marker <;> simp
  refine ⟨fun l s ⟨ls, h1, _⟩ => (h.link ls l h1).1, fun l s ⟨ls, h1, _⟩ => (h.link ls l h1).2, fun l s ⟨ls, h1, _⟩ => h.stop ls l h1, ?_, ?_⟩
  · rintro l s ⟨ls, h1, h2⟩ ha
    rw [hs h2] at ha
    exact h.onward ls l h1 ha
  · rintro l s ⟨ls, h1, h2⟩ ha m hm
    rw [hs h2] at ha ⊢
    refine ⟨ls ++ [l], ⟨walk_snoc.2 ⟨h1.walk, ?_⟩, .inr ⟨by simp, by simpa using ha⟩⟩, rfl⟩
    simpa [stops] using hm

end Flee
