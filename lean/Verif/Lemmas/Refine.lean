import Verif.Lemmas.ParallelAgents
import Verif.Lemmas.Step
import Verif.Spec.Refine

/-!
A process of the parallel simulation steps like the sequential simulation of its own agents, where no location has an effective capacity.
-/

namespace Flee

open Spec

/-! ### Decisions do not read the numbers of agents -/

/-- A location without numbers of agents, and without routes unless they are fixed. -/
def Loc.blur (c : Cfg) (l : Loc) : Loc :=
  { l with numAgents := 0, numAgentsSpawned := 0, routes := if c.fixedRoutes then l.routes else [] }

/-- A world without numbers of agents, and without routes unless they are fixed. -/
def World.blur (c : Cfg) (w : World) : World :=
  { w with loc := fun i => (w.loc i).blur c, link := fun l => { w.link l with numAgents := 0, cumNumAgents := 0 } }

/-- Lists and ends of links are in range. -/
structure Closed (w : World) : Prop where
  mem : ∀ i < w.nLoc, ∀ l ∈ (w.loc i).links, l < w.nLink
  ends : ∀ l < w.nLink, (w.link l).start < w.nLoc ∧ (w.link l).endp < w.nLoc

theorem Inv.closed {w : World} {as : List Agent} (h : Inv w as) : Closed w :=
  ⟨fun i hi l hl => (h.lnk i hi l (.inl hl)).1, h.ends⟩

theorem Closed.blur {c : Cfg} {w v : World} (h : Closed w) (e : (w.blur c) = (v.blur c)) : Closed v := by
  have h1 : w.nLoc = v.nLoc := (congrArg World.nLoc e :)
  have h2 : w.nLink = v.nLink := (congrArg World.nLink e :)
  have h3 : ∀ i, (w.loc i).links = (v.loc i).links := fun i => (congrArg Loc.links (congrFun (congrArg World.loc e :) i) :)
  have h4 : ∀ i, (w.link i).start = (v.link i).start := fun i => (congrArg Lnk.start (congrFun (congrArg World.link e :) i) :)
  have h5 : ∀ i, (w.link i).endp = (v.link i).endp := fun i => (congrArg Lnk.endp (congrFun (congrArg World.link e :) i) :)
  exact ⟨fun i hi l hl => h2 ▸ h.mem i (h1 ▸ hi) l (h3 i ▸ hl), fun l hl => by
    rw [← h1, ← h4, ← h5]; exact h.ends l (h2 ▸ hl)⟩

theorem Spec.Uncapped.blur {c : Cfg} {w v : World} (h : Uncapped c w) (e : (w.blur c) = (v.blur c)) : Uncapped c v := by
  have h1 : w.nLoc = v.nLoc := (congrArg World.nLoc e :)
  have h3 : ∀ i, (w.loc i).capacity = (v.loc i).capacity := fun i =>
    (congrArg Loc.capacity (congrFun (congrArg World.loc e :) i) :)
  intro i hi
  rw [← h3]
  exact h i (h1 ▸ hi)

theorem uncapped_multiplier {c : Cfg} {l : Loc} (h : (l.capacity : ℚ) * c.capacityScaling < 1) : getCapMultiplier c l = .ok 1 := by
  simp only [getCapMultiplier, if_pos h]

theorem endPointScore_blur (c : Cfg) (w : World) (a : Agent) (l : Loc) :
    c.endPointScore (w.blur c) a (l.blur c) = c.endPointScore w a l := rfl

theorem moveChance_blur (c : Cfg) (a : Agent) (l : Loc) (t : Nat) (f : Bool) : moveChance c a (l.blur c) t f = moveChance c a l t f := rfl

theorem foldlM_alike {ε α β : Type} {f g : β → α → Except ε β} : ∀ {l : List α} {b : β},
    (∀ b, ∀ a ∈ l, f b a = g b a) → l.foldlM f b = l.foldlM g b
  | [], _, _ => rfl
  | a :: l, b, h => by
    rw [List.foldlM_cons, List.foldlM_cons, h b a (by simp)]
    cases g b a with
    | error e => rfl
    | ok x => exact foldlM_alike fun b c hc => h b c (by simp [hc])

theorem linkWeight_blur {c : Cfg} {w : World} {score score' : Loc → Except Err ℚ} (hw : Closed w) (hu : Uncapped c w)
    (hs : ∀ l, score' (l.blur c) = score l) : ∀ (fuel l : Nat) (prior : ℚ) (origin : List String) (step : Int), l < w.nLink →
    linkWeight c (w.blur c) score' fuel l prior origin step = linkWeight c w score fuel l prior origin step
  | 0, _, _, _, _, _ => rfl
  | fuel + 1, l, prior, origin, step, hl => by
    have he := (hw.ends l hl).2
    have hown : ownCandidate c (w.blur c) score' l prior origin = ownCandidate c w score l prior origin := by
      have e1 := uncapped_multiplier (hu _ he)
      have e2 : getCapMultiplier c ((w.loc (w.link l).endp).blur c) = .ok 1 := uncapped_multiplier (l := ((w.loc (w.link l).endp).blur c)) (hu _ he)
      have hs' := hs (w.loc (w.link l).endp)
      simp only [ownCandidate]
      show (if (w.loc (w.link l).endp).marker = true then _ else _) = _
      split
      · rfl
      · show (score' ((w.loc (w.link l).endp).blur c) >>= fun s => candidateWeight c s ((w.loc (w.link l).endp).blur c) (w.link l).dist prior >>= _) = _
        rw [hs']
        simp only [candidateWeight, e1, e2]
        rfl
    rw [linkWeight, linkWeight, hown]
    cases ownCandidate c w score l prior origin with
    | error e => rfl
    | ok base =>
      suffices H : ∀ st : Int, (if c.awareness > st then (w.loc (w.link l).endp).links.foldlM (fun acc lel =>
          if (w.epName lel).val ∈ origin then .ok acc
          else (linkWeight c (w.blur c) score' fuel lel (prior + (w.link l).dist) (origin ++ [(w.loc (w.link l).endp).name.val])
            (st + 1)).map (fun r => (acc.1 ++ r.1, acc.2 ++ r.2))) base else .ok base) =
          (if c.awareness > st then (w.loc (w.link l).endp).links.foldlM (fun acc lel =>
          if (w.epName lel).val ∈ origin then .ok acc
          else (linkWeight c w score fuel lel (prior + (w.link l).dist) (origin ++ [(w.loc (w.link l).endp).name.val])
            (st + 1)).map (fun r => (acc.1 ++ r.1, acc.2 ++ r.2))) base else .ok base) from H _
      intro st
      split
      · refine foldlM_alike fun acc lel hm => ?_
        split
        · rfl
        · rw [linkWeight_blur hw hu hs fuel lel _ _ _ (hw.mem _ he lel hm)]
      · rfl

theorem allRoutes_blur {c : Cfg} {w : World} {score score' : Loc → Except Err ℚ} (hw : Closed w) (hu : Uncapped c w)
    (hs : ∀ l, score' (l.blur c) = score l) {i : Nat} (hi : i < w.nLoc) :
    allRoutes c (w.blur c) score' i = allRoutes c w score i := by
  unfold allRoutes
  refine foldlM_alike (l := (w.loc i).links) fun acc l hl => ?_
  rw [← linkWeight_blur hw hu hs w.searchFuel l 0 [(w.loc i).name.val] 1 (hw.mem i hi l hl)]
  rfl

theorem routeCandidates_blur {c : Cfg} {w : World} {a : Agent} {i : Nat} (hw : Closed w)
    (hu : Uncapped c w) (hi : i < w.nLoc) : routeCandidates c (w.blur c) a i = routeCandidates c w a i := by
  unfold routeCandidates
  split
  · rename_i hf
    have e : ((w.blur c).loc i).routes = (w.loc i).routes := by
      simp only [World.blur, Loc.blur, hf, if_true]
    rw [e]
    rfl
  · rw [allRoutes_blur hw hu (fun l => endPointScore_blur c w a l) hi]

theorem selectRoute_blur {c : Cfg} {w : World} {a : Agent} {i : Nat} (hw : Closed w)
    (hu : Uncapped c w) (hi : i < w.nLoc) :
    selectRoute c (w.blur c) a i = (selectRoute c w a i).map fun r => (r.1, r.2.blur c) := by
  unfold selectRoute
  by_cases ha : c.awareness = 0
  · rw [if_pos ha, if_pos ha]
    show (if (w.loc i).links.length = 0 then _ else _) = _
    dsimp only
    split <;> rfl
  · rw [if_neg ha, if_neg ha, routeCandidates_blur hw hu hi]
    cases routeCandidates c w a i with
    | error e => rfl
    | ok x =>
      obtain ⟨ws, rs⟩ := x
      dsimp only
      by_cases hl : ws.length = 0
      · rw [if_pos hl, if_pos hl]; rfl
      · rw [if_neg hl, if_neg hl]
        show (match chooseFromWeights ws rs w.draw.1 with | .error e => _ | .ok none => _ | .ok (some route) => _) = _
        cases chooseFromWeights ws rs w.draw.1 with
        | error e => rfl
        | ok r =>
          cases r with
          | none => rfl
          | some route =>
            dsimp only
            split <;> rfl

theorem planRoute_blur {c : Cfg} {w : World} {a : Agent} {i : Nat} (hw : Closed w)
    (hu : Uncapped c w) (hi : i < w.nLoc) :
    planRoute c (w.blur c) a i = (planRoute c w a i).map fun r => (r.1, r.2.blur c) := by
  unfold planRoute
  split
  · exact selectRoute_blur hw hu hi
  · rfl

theorem destIsFullCamp_blur {c : Cfg} {w : World} {d : Way} (hu : Uncapped c w) :
    destIsFullCamp c (w.blur c) d = destIsFullCamp c w d := by
  unfold destIsFullCamp
  have e : (List.range (w.blur c).nLoc).find? (fun i => decide (Way.name ((w.blur c).loc i).name.val = d)) =
    (List.range w.nLoc).find? (fun i => decide (Way.name (w.loc i).name.val = d)) := rfl
  rw [e]
  cases h : (List.range w.nLoc).find? (fun i => decide (Way.name (w.loc i).name.val = d)) with
  | none => rfl
  | some i =>
    have hi : i < w.nLoc := List.mem_range.mp (List.mem_of_find?_eq_some h)
    dsimp only
    rw [uncapped_multiplier (hu i hi), uncapped_multiplier (l := (w.blur c).loc i) (hu i hi)]
    rfl

theorem takeNextStep_blur {c : Cfg} {w : World} {r : Option (List Way)} {i : Nat} (hu : Uncapped c w) :
    takeNextStep c (w.blur c) r i = takeNextStep c w r i := by
  unfold takeNextStep
  have e : ((w.blur c).loc i).links = (w.loc i).links := rfl
  rw [e]
  cases (w.loc i).links with
  | nil => rfl
  | cons k ks =>
    cases r with
    | none => rfl
    | some r =>
      cases r with
      | nil => rfl
      | cons r rs =>
        dsimp only
        have e : (k :: ks).find? (fun l => decide (Way.name ((w.blur c).epName l).val = r)) =
          (k :: ks).find? (fun l => decide (Way.name (w.epName l).val = r)) := rfl
        rw [e, destIsFullCamp_blur hu]

/-! ### One agent -/

/-- What the copy of a process has in common with the sequential simulation. -/
abbrev World.plain (w : World) : World := @World.shared ⟨true, true, true⟩ w

theorem plain_draws {w v : World} (h : w.plain = v.plain) : w.draws = v.draws := (congrArg World.draws h :)

theorem plain_time {w v : World} (h : w.plain = v.plain) : w.time = v.time := (congrArg World.time h :)

theorem plain_decr {w v : World} (h : w.plain = v.plain) (q : Place) : (w.decr q).plain = (v.decr q).plain := by
  have e : ∀ u : World, (u.decr q).plain = u.plain.decr q := by
    intro u
    cases q with
    | loc i => exact @shared_setLoc ⟨true, true, true⟩ _ _ _
    | link i => exact @shared_setLink ⟨true, true, true⟩ _ _ _
    | gone i => rfl
  rw [e, e, h]

theorem plain_incr {w v : World} (h : w.plain = v.plain) (q : Place) : (w.incr q).plain = (v.incr q).plain := by
  have e : ∀ u : World, (u.incr q).plain = u.plain.incr q := by
    intro u
    cases q with
    | loc i => exact @shared_setLoc ⟨true, true, true⟩ _ _ _
    | link i => exact @shared_setLink ⟨true, true, true⟩ _ _ _
    | gone i => rfl
  rw [e, e, h]

theorem plain_withDraws {w v : World} (h : w.plain = v.plain) (d : Nat → ℚ) :
    ({ w with draws := d } : World).plain = ({ v with draws := d } : World).plain :=
  (congrArg (fun u : World => { u with draws := d }) h :)

theorem plain_drawn {w v : World} (h : w.plain = v.plain) : w.draw.1 = v.draw.1 ∧ w.draw.2.plain = v.draw.2.plain := by
  have := plain_draws h
  refine ⟨?_, ?_⟩
  · simp only [World.draw, this]
  · simp only [World.draw, this]
    exact plain_withDraws h _

/-- The routes of locations, if they are fixed. -/
def World.routesOf (c : Cfg) (w : World) : Nat → List (String × ℚ × List String × Nat) :=
  fun i => if c.fixedRoutes then (w.loc i).routes else []

/-- What the copy of a process has in common with the sequential simulation, with the fixed routes. -/
abbrev World.tied (c : Cfg) (w : World) : World × (Nat → List (String × ℚ × List String × Nat)) := (w.plain, w.routesOf c)

theorem tied_plain {c : Cfg} {w v : World} (h : w.tied c = v.tied c) : w.plain = v.plain := (Prod.mk.inj h).1

theorem tied_free {c : Cfg} {w v : World} (hf : c.fixedRoutes = false) (h : w.plain = v.plain) : w.tied c = v.tied c := by
  refine Prod.ext h (funext fun i => ?_)
  simp [World.routesOf, hf]

theorem tied_blur {c : Cfg} {w v : World} (h : w.tied c = v.tied c) : w.blur c = v.blur c :=
  (congrArg (fun x : World × (Nat → List (String × ℚ × List String × Nat)) =>
    { x.1 with loc := fun i => { x.1.loc i with numAgents := 0, numAgentsSpawned := 0, routes := x.2 i },
               link := fun l => { x.1.link l with numAgents := 0, cumNumAgents := 0 } }) h :)

theorem routesOf_decr (c : Cfg) (w : World) (q : Place) : (w.decr q).routesOf c = w.routesOf c := by
  funext i
  cases q with
  | loc j => by_cases h : i = j <;> simp [World.routesOf, World.decr, World.setLoc, h]
  | link j => rfl
  | gone j => rfl

theorem routesOf_incr (c : Cfg) (w : World) (q : Place) : (w.incr q).routesOf c = w.routesOf c := by
  funext i
  cases q with
  | loc j => by_cases h : i = j <;> simp [World.routesOf, World.incr, World.setLoc, h]
  | link j => rfl
  | gone j => rfl

theorem tied_travel {c : Cfg} {w v : World} (h : w.tied c = v.tied c) (q q' : Place) :
    ((w.decr q).incr q').tied c = ((v.decr q).incr q').tied c := by
  refine Prod.ext (plain_incr (plain_decr (tied_plain h) q) q') ?_
  show ((w.decr q).incr q').routesOf c = ((v.decr q).incr q').routesOf c
  rw [routesOf_incr, routesOf_incr, routesOf_decr, routesOf_decr]
  exact (Prod.mk.inj h).2

theorem tied_withDraws {c : Cfg} {w v : World} (h : w.tied c = v.tied c) (d : Nat → ℚ) :
    ({ w with draws := d } : World).tied c = ({ v with draws := d } : World).tied c :=
  Prod.ext (plain_withDraws (tied_plain h) d) (Prod.mk.inj h).2

theorem tied_drawn {c : Cfg} {w v : World} (h : w.tied c = v.tied c) : w.draw.1 = v.draw.1 ∧ w.draw.2.tied c = v.draw.2.tied c :=
  ⟨(plain_drawn (tied_plain h)).1, Prod.ext (plain_drawn (tied_plain h)).2 (Prod.mk.inj h).2⟩

theorem parTravel_seq {c : Cfg} {s : Own} {w : World} (h : s.w.tied c = w.tied c) (a : Agent) (q : Place) (t : Bool) :
    (parTravel s a q t).1.w.tied c = (handleTravel w a q t).1.tied c ∧ (parTravel s a q t).2 = (handleTravel w a q t).2 :=
  ⟨tied_travel h _ _, rfl⟩

theorem view_blur (s : Own) : (s.view.blur c) = (s.w.blur c) := rfl

theorem parDepart_seq {c : Cfg} {s : Own} {w : World} {a : Agent} {i : Nat} (hw : Closed w)
    (hu : Uncapped c w) (hi : i < w.nLoc) (h : s.w.tied c = w.tied c) :
    (parDepart c s a i).map (fun r => (r.1.w.tied c, r.2)) = (tryDepart c w a i).map (fun r => (r.1.tied c, r.2)) := by
  have hb : (s.view.blur c) = (w.blur c) := (view_blur s).trans (tied_blur h)
  have hwv : Closed s.view := hw.blur hb.symm
  have huv : Uncapped c s.view := hu.blur hb.symm
  have hn : s.view.nLoc = w.nLoc := (congrArg World.nLoc hb :)
  have e1 := planRoute_blur (a := a) hw hu hi
  have e2 := planRoute_blur (a := a) hwv huv (i := i) (hn ▸ hi)
  rw [hb, e1] at e2
  unfold parDepart tryDepart
  cases hp : planRoute c w a i with
  | error x =>
    cases hq : planRoute c s.view a i with
    | error y =>
      rw [hp, hq] at e2
      cases e2
      rfl
    | ok y => rw [hp, hq] at e2; cases e2
  | ok x =>
    cases hq : planRoute c s.view a i with
    | error y => rw [hp, hq] at e2; cases e2
    | ok y =>
      obtain ⟨r, w1⟩ := x
      obtain ⟨r', v1⟩ := y
      rw [hp, hq] at e2
      simp only [Except.map, Except.ok.injEq, Prod.mk.injEq] at e2
      obtain ⟨rfl, eb⟩ := e2
      obtain ⟨d, rfl⟩ := planRoute_world hp
      obtain ⟨d', rfl⟩ := planRoute_world hq
      have ed : d = d' := (congrArg World.draws eb :)
      subst ed
      have ht : takeNextStep c { s.view with draws := d } r i = takeNextStep c { w with draws := d } r i := by
        rw [← takeNextStep_blur (w := { s.view with draws := d }) huv, ← takeNextStep_blur (w := { w with draws := d }) hu, eb]
      show Except.map _ (takeNextStep c { s.view with draws := d } r i >>= _) = Except.map _ (takeNextStep c { w with draws := d } r i >>= _)
      rw [ht]
      cases takeNextStep c { w with draws := d } r i with
      | error x => rfl
      | ok x =>
        obtain ⟨dest, rt⟩ := x
        cases dest with
        | none =>
          exact congrArg Except.ok (Prod.ext (tied_withDraws h d) rfl)
        | some l =>
          obtain ⟨g1, g2⟩ := parTravel_seq (s := { s with w := { s.w with draws := d } }) (w := { w with draws := d })
            (tied_withDraws h d) { a with route := rt } (.link l) true
          exact congrArg Except.ok (Prod.ext g1 g2)

theorem parPerson_seq {c : Cfg} {s : Own} {w : World} {a : Agent} {f : Bool} (hw : Closed w)
    (hu : Uncapped c w) (hi : PlaceOK w a.place) (h : s.w.tied c = w.tied c) :
    (parPerson c s a f).map (fun r => (r.1.w.tied c, r.2)) = (personEvolve c w a f).map (fun r => (r.1.tied c, r.2)) := by
  unfold parPerson personEvolve
  split
  · exact congrArg Except.ok (Prod.ext h rfl)
  · cases hp : a.place with
    | link l => rfl
    | gone l => rfl
    | loc i =>
      rw [hp] at hi
      dsimp only
      have hb : (s.view.blur c) = (w.blur c) := (view_blur s).trans (tied_blur h)
      have hm : moveChance c a (s.view.loc i) s.w.time f = moveChance c a (w.loc i) w.time f := by
        rw [← moveChance_blur, ← moveChance_blur c a (w.loc i), plain_time (tied_plain h)]
        exact congrArg (moveChance c a · w.time f) (congrFun (congrArg World.loc hb :) i)
      rw [hm]
      cases moveChance c a (w.loc i) w.time f with
      | error x => rfl
      | ok m =>
        obtain ⟨g1, g2⟩ := tied_drawn h
        show Except.map _ (if s.w.draw.1 < m then _ else _) = Except.map _ (if w.draw.1 < m then _ else _)
        rw [g1]
        split
        · exact parDepart_seq (s := { s with w := s.w.draw.2 }) (w := w.draw.2) ⟨hw.mem, hw.ends⟩ hu hi g2
        · exact congrArg Except.ok (Prod.ext g2 rfl)


/-- An agent that can be stepped. -/
structure Ready (c : Cfg) (w : World) (a : Agent) : Prop where
  closed : Closed w
  uncapped : Uncapped c w
  place : PlaceOK w a.place
  travel : TravelOK a
  alive : ∀ i, a.place ≠ .gone i

theorem StepRel.closed {w w' : World} {p p' : Place} (h : StepRel w p w' p') (hw : Closed w) : Closed w' := by
  refine ⟨fun i hi l hl => ?_, fun l hl => ?_⟩
  · rw [show (w'.loc i).links = (w.loc i).links from (congrArg Loc.links (h.locCore i) :)] at hl
    exact h.nLink ▸ hw.mem i (h.nLoc ▸ hi) l hl
  · rw [show (w'.link l).start = (w.link l).start from (congrArg Lnk.start (h.linkCore l) :),
      show (w'.link l).endp = (w.link l).endp from (congrArg Lnk.endp (h.linkCore l) :), h.nLoc]
    exact hw.ends l (h.nLink ▸ hl)

theorem StepRel.uncapped {c : Cfg} {w w' : World} {p p' : Place} (h : StepRel w p w' p') (hw : Uncapped c w) : Uncapped c w' := by
  intro i hi
  rw [show (w'.loc i).capacity = (w.loc i).capacity from (congrArg Loc.capacity (h.locCore i) :)]
  exact hw i (h.nLoc ▸ hi)

theorem StepRel.placeOK {w w' : World} {p p' q : Place} (h : StepRel w p w' p') (hq : PlaceOK w q) : PlaceOK w' q := by
  cases q <;> simpa only [PlaceOK, h.nLoc, h.nLink] using hq

theorem Closed.path {w : World} (h : Closed w) {p q : Place} {ps : List Place} (g : Path w p ps q) (hp : PlaceOK w p) :
    PlaceOK w q := by
  induction g with
  | nil => exact hp
  | cons hh _ ih =>
    refine ih ?_
    cases hh with
    | depart i l hl => exact h.mem i hp l hl
    | arrive l _ => exact (h.ends l hp).2
    | turnBack l _ => exact (h.ends l hp).1

theorem Ready.step {c : Cfg} {w w' : World} {a a' : Agent} (h : Ready c w a) (g : AgentStep w a w' a') : Ready c w' a' := by
  obtain ⟨ps, hp, -⟩ := g.path
  exact ⟨g.rel.closed h.closed, g.rel.uncapped h.uncapped, g.rel.placeOK (h.closed.path hp h.place), g.ok, g.alive⟩

theorem Ready.other {c : Cfg} {w w' : World} {b : Agent} {p p' : Place} (h : Ready c w b) (g : StepRel w p w' p') : Ready c w' b :=
  ⟨g.closed h.closed, g.uncapped h.uncapped, g.placeOK h.place, h.travel, h.alive⟩

/-- The same result, or the same exception. -/
def AgreeOne (c : Cfg) (x : Except Err (Own × Agent)) (y : Except Err (World × Agent)) : Prop :=
  x.map (fun r => (r.1.w.tied c, r.2)) = y.map (fun r => (r.1.tied c, r.2))

theorem AgreeOne.cases {c : Cfg} {x : Except Err (Own × Agent)} {y : Except Err (World × Agent)} (h : AgreeOne c x y) :
    (∃ e, x = .error e ∧ y = .error e) ∨ ∃ s w a, x = .ok (s, a) ∧ y = .ok (w, a) ∧ s.w.tied c = w.tied c := by
  cases x with
  | error e =>
    cases y with
    | error e' => cases h; exact .inl ⟨_, rfl, rfl⟩
    | ok y => cases h
  | ok x =>
    cases y with
    | error e' => cases h
    | ok y =>
      obtain ⟨s, a⟩ := x
      obtain ⟨w, b⟩ := y
      simp only [AgreeOne, Except.map, Except.ok.injEq] at h
      obtain ⟨h', rfl⟩ := Prod.mk.inj h
      exact .inr ⟨s, w, a, rfl, rfl, h'⟩

theorem Ready.arrive {c : Cfg} {w : World} {a : Agent} (hr : Ready c w a) {l : Nat} (hl : l < w.nLink) (b : Agent)
    (hb : b.place = .link l) : Ready c (handleTravel w.draw.2 b (.loc (w.link l).endp) false).1
      (handleTravel w.draw.2 b (.loc (w.link l).endp) false).2 := by
  have hrel := (StepRel.draws w b.place _).trans (handleTravel_rel w.draw.2 b (.loc (w.link l).endp) false (by simp [hb]) (by simp))
  exact ⟨hrel.closed hr.closed, hrel.uncapped hr.uncapped, hrel.placeOK (q := .loc (w.link l).endp) (hr.closed.ends l hl).2,
    by simp [TravelOK, handleTravel], by simp [handleTravel]⟩

theorem parFinish_seq {c : Cfg} : ∀ {fuel : Nat} {s : Own} {w : World} {a : Agent}, Ready c w a →
    s.w.tied c = w.tied c → AgreeOne c (parFinish c fuel s a) (finishTravel c fuel w a)
  | 0, _, _, _, _, _ => rfl
  | fuel + 1, s, w, a, hr, h => by
    unfold parFinish finishTravel
    cases ht : a.travelling with
    | false => exact congrArg Except.ok (Prod.ext h rfl)
    | true =>
      rw [if_pos rfl, if_pos rfl]
      cases hp : a.place with
      | loc i => rfl
      | gone i => rfl
      | link l =>
        obtain ⟨g1, g2⟩ := tied_drawn h
        have hk : s.w.link l = w.link l := congrFun (congrArg World.link (tied_plain h) :) l
        have hl : l < w.nLink := by simpa only [hp, PlaceOK] using hr.place
        dsimp only
        rw [hk, g1]
        split
        · split
          · obtain ⟨t1, t2⟩ := parTravel_seq (s := { s with w := s.w.draw.2 }) g2
              { a with place := .link l, travelling := true, dtol := a.dtol + todaysSpeed c (w.link l) a w.draw.1,
                       places := a.places + 1,
                       moved := a.moved + todaysSpeed c (w.link l) a w.draw.1 +
                         ((w.link l).dist - (a.dtol + todaysSpeed c (w.link l) a w.draw.1)),
                       travelled := a.travelled + (w.link l).dist } (.loc (w.link l).start) false
            exact congrArg Except.ok (Prod.ext t1 t2)
          · obtain ⟨t1, t2⟩ := parTravel_seq (s := { s with w := s.w.draw.2 }) g2
              { a with place := .link l, travelling := true, dtol := a.dtol + todaysSpeed c (w.link l) a w.draw.1,
                       places := a.places + 1,
                       moved := a.moved + todaysSpeed c (w.link l) a w.draw.1 +
                         ((w.link l).dist - (a.dtol + todaysSpeed c (w.link l) a w.draw.1)),
                       travelled := a.travelled + (w.link l).dist } (.loc (w.link l).endp) false
            split
            · have hr1 := hr.arrive hl
                  { a with place := .link l, travelling := true, dtol := a.dtol + todaysSpeed c (w.link l) a w.draw.1,
                           places := a.places + 1,
                           moved := a.moved + todaysSpeed c (w.link l) a w.draw.1 +
                             ((w.link l).dist - (a.dtol + todaysSpeed c (w.link l) a w.draw.1)),
                           travelled := a.travelled + (w.link l).dist } rfl
              have hagree := parPerson_seq (f := forceTownMove c (handleTravel w.draw.2
                  { a with place := .link l, travelling := true, dtol := a.dtol + todaysSpeed c (w.link l) a w.draw.1,
                           places := a.places + 1,
                           moved := a.moved + todaysSpeed c (w.link l) a w.draw.1 +
                             ((w.link l).dist - (a.dtol + todaysSpeed c (w.link l) a w.draw.1)),
                           travelled := a.travelled + (w.link l).dist } (.loc (w.link l).endp) false).2)
                hr1.closed hr1.uncapped hr1.place t1
              rcases AgreeOne.cases hagree with ⟨e, x1, x2⟩ | ⟨s1, w1, a1, x1, x2, x3⟩
              · simp only [AgreeOne]
                rw [show (parTravel { s with w := s.w.draw.2 } _ _ _).2 = _ from t2, x1, x2]
                rfl
              · have hr2 := hr1.step (personEvolve_step x2 hr1.travel hr1.alive)
                simp only [AgreeOne]
                rw [show (parTravel { s with w := s.w.draw.2 } _ _ _).2 = _ from t2, x1, x2]
                exact parFinish_seq hr2 x3
            · exact congrArg Except.ok (Prod.ext t1 t2)
        · exact congrArg Except.ok (Prod.ext g2 rfl)

/-! ### All agents -/

/-- The same result for a list of agents, or the same exception. -/
def AgreeAll (c : Cfg) (x : Except Err (Own × List Agent)) (y : Except Err (World × List Agent)) : Prop :=
  x.map (fun r => (r.1.w.tied c, r.2)) = y.map (fun r => (r.1.tied c, r.2))

theorem AgreeAll.cases {c : Cfg} {x : Except Err (Own × List Agent)} {y : Except Err (World × List Agent)} (h : AgreeAll c x y) :
    (∃ e, x = .error e ∧ y = .error e) ∨ ∃ s w a, x = .ok (s, a) ∧ y = .ok (w, a) ∧ s.w.tied c = w.tied c := by
  cases x with
  | error e =>
    cases y with
    | error e' => cases h; exact .inl ⟨_, rfl, rfl⟩
    | ok y => cases h
  | ok x =>
    cases y with
    | error e' => cases h
    | ok y =>
      obtain ⟨s, a⟩ := x
      obtain ⟨w, b⟩ := y
      simp only [AgreeAll, Except.map, Except.ok.injEq] at h
      obtain ⟨h', rfl⟩ := Prod.mk.inj h
      exact .inr ⟨s, w, a, rfl, rfl, h'⟩

theorem evolveOne_present {c : Cfg} {w : World} {a : Agent} (h : ∀ i, a.place ≠ .gone i) : evolveOne c w a = personEvolve c w a false := by
  unfold evolveOne
  cases hp : a.place with
  | loc i => rfl
  | link i => rfl
  | gone i => exact absurd hp (h i)

theorem finishOne_present {c : Cfg} {fuel : Nat} {w : World} {a : Agent} (h : ∀ i, a.place ≠ .gone i) :
    finishOne c fuel w a = (finishTravel c fuel w a).map fun r => (r.1, { r.2 with timesteps := r.2.timesteps + 1 }) := by
  unfold finishOne
  cases hp : a.place with
  | gone i => exact absurd hp (h i)
  | loc i => cases finishTravel c fuel w a <;> rfl
  | link i => cases finishTravel c fuel w a <;> rfl

theorem parEvolveAll_seq {c : Cfg} : ∀ {as : List Agent} {s : Own} {w : World},
    (∀ a ∈ as, Ready c w a) → s.w.tied c = w.tied c → AgreeAll c (parEvolveAll c s as) (evolveAll c w as)
  | [], _, _, _, h => congrArg Except.ok (Prod.ext h rfl)
  | a :: as, s, w, hr, h => by
    have ha := hr a (by simp)
    unfold parEvolveAll evolveAll
    rw [evolveOne_present ha.alive]
    rcases AgreeOne.cases (parPerson_seq (f := false) ha.closed ha.uncapped ha.place h) with
      ⟨e, x1, x2⟩ | ⟨s1, w1, a1, x1, x2, x3⟩
    · rw [x1, x2]; rfl
    · rw [x1, x2]
      have hst := personEvolve_step x2 ha.travel ha.alive
      have := parEvolveAll_seq (as := as) (fun b hb => (hr b (by simp [hb])).other hst.rel) x3
      show AgreeAll c (parEvolveAll c s1 as >>= _) (evolveAll c w1 as >>= _)
      rcases this.cases with ⟨e, y1, y2⟩ | ⟨s2, w2, as2, y1, y2, y3⟩
      · rw [y1, y2]; rfl
      · rw [y1, y2]
        exact congrArg Except.ok (Prod.ext y3 rfl)

theorem parFinishAll_seq {c : Cfg} {fuel : Nat} : ∀ {as : List Agent} {s : Own} {w : World},
    (∀ a ∈ as, Ready c w a) → s.w.tied c = w.tied c → AgreeAll c (parFinishAll c fuel s as) (finishAll c fuel w as)
  | [], _, _, _, h => congrArg Except.ok (Prod.ext h rfl)
  | a :: as, s, w, hr, h => by
    have ha := hr a (by simp)
    unfold parFinishAll finishAll
    rw [finishOne_present ha.alive]
    rcases AgreeOne.cases (parFinish_seq (fuel := fuel) ha h) with ⟨e, x1, x2⟩ | ⟨s1, w1, a1, x1, x2, x3⟩
    · rw [x1, x2]; rfl
    · rw [x1, x2]
      have hst := finishTravel_step x2 ha.travel ha.alive
      have := parFinishAll_seq (fuel := fuel) (as := as) (fun b hb => (hr b (by simp [hb])).other hst.rel) x3
      show AgreeAll c (parFinishAll c fuel s1 as >>= _) (finishAll c fuel w1 as >>= _)
      rcases this.cases with ⟨e, y1, y2⟩ | ⟨s2, w2, as2, y1, y2, y3⟩
      · rw [y1, y2]; rfl
      · rw [y1, y2]
        exact congrArg Except.ok (Prod.ext y3 rfl)

/-! ### The time step -/

theorem foldlM_still {α : Type} {f : World → α → Except Err World} (hf : ∀ w a w', f w a = .ok w' → w'.draws = w.draws) :
    ∀ {l : List α} {w w' : World}, l.foldlM f w = .ok w' → w'.draws = w.draws
  | [], w, w', h => by
    simp only [List.foldlM_nil, Except.pure_eq_ok] at h
    rw [h]
  | a :: l, w, w', h => by
    rw [List.foldlM_cons, Except.bind_eq_ok] at h
    obtain ⟨w1, h1, h2⟩ := h
    exact (foldlM_still hf h2).trans (hf _ _ _ h1)

theorem updateScores_still {c : Cfg} {w w' : World} (hf : c.fixedRoutes = false) (h : updateScores c w = .ok w') :
    w'.draws = w.draws := by
  refine foldlM_still ?_ h
  intro w i w' h
  exact (updateLocationScore_still hf h).trans rfl

theorem initialScores_still {c : Cfg} {k p : Nat} {w w' : World} (hf : c.fixedRoutes = false)
    (h : initialScores c k p w = .ok w') : w'.draws = w.draws := by
  unfold initialScores at h
  split at h
  · refine foldlM_still (fun w _ w' h => foldlM_still (fun w i w' h => ?_) h) h
    split at h
    · exact updateLocationScore_still hf h
    · rw [Except.pure_eq_ok] at h; rw [h]
  · cases h; rfl

theorem scorePhase_still {c : Cfg} {m : ParMode} {k : Nat} {ps ps' : Nat → Proc} (hf : c.fixedRoutes = false)
    (h : scorePhase c m k ps = .ok ps') : ∀ p < k, (ps' p).e.w.draws = (ps p).e.w.draws := by
  intro p hp
  unfold scorePhase at h
  split at h
  · have := (eachProc_ok h).1 p hp
    simp only [Except.bind_eq_ok, Except.pure_eq_ok] at this
    obtain ⟨w, h1, h2⟩ := this
    rw [← h2]
    exact updateScores_still hf h1
  · simp only [Except.bind_eq_ok] at h
    obtain ⟨p1, h1, p2, h2, h3⟩ := h
    have g1 := (eachProc_ok h1).1 p hp
    have g2 := (eachProc_ok h2).1 p hp
    have g3 := (eachProc_ok h3).1 p hp
    simp only [Except.bind_eq_ok, Except.pure_eq_ok] at g1 g2 g3
    obtain ⟨w1, g1, e1⟩ := g1
    obtain ⟨arr, -, e2⟩ := g2
    obtain ⟨w3, g3, e3⟩ := g3
    simp only [missingRoutes, hf, Bool.false_eq_true, if_false, Except.ok.injEq] at g3
    rw [← e3, ← g3, ← e2, ← e1]
    refine Eq.trans (b := w1.draws) rfl (foldlM_still ?_ g1)
    intro w i w' h
    exact (updateLocationScore_still hf h).trans rfl
  · cases h; rfl

theorem scores_return {c : Cfg} (hf : c.fixedRoutes = false) : ∀ {l : List Nat} {w : World},
    (∀ i ∈ l, ∃ x, locationScore c w.time (w.loc i) = .ok x) → ∃ w', l.foldlM (fun w i =>
      updateLocationScore c w.time (w.setLoc i { w.loc i with routes := [] }) i) w = .ok w'
  | [], w, _ => ⟨w, rfl⟩
  | i :: l, w, h => by
    obtain ⟨x, hx⟩ := h i (by simp)
    have h0 : updateLocationScore c w.time (w.setLoc i { w.loc i with routes := [] }) i =
        .ok ((w.setLoc i { w.loc i with routes := [] }).setLoc i
          { (w.setLoc i { w.loc i with routes := [] }).loc i with score := x }) := by
      have : locationScore c w.time ((w.setLoc i { w.loc i with routes := [] }).loc i) = .ok x := by
        rw [← hx]
        refine fixed_score ?_
        simp [World.setLoc, Loc.fixed]
      simp only [updateLocationScore, this, hf, Bool.false_eq_true, if_false]
      rfl
    rw [List.foldlM_cons, h0]
    refine scores_return hf fun j hj => ?_
    obtain ⟨y, hy⟩ := h j (by simp [hj])
    refine ⟨y, ?_⟩
    show locationScore c w.time _ = _
    rw [← hy]
    refine fixed_score ?_
    by_cases hij : j = i
    · subst hij; simp [World.setLoc, Loc.fixed]
    · simp [World.setLoc, hij]

theorem rescored_plain {w v w' v' : World} (hw : Rescored w w') (hv : Rescored v v') (h : w.plain = v.plain)
    (hs : ∀ i, (w'.loc i).score = (v'.loc i).score) (hd : w'.draws = v'.draws) : w'.plain = v'.plain := by
  let _ : ScoresCount := ⟨true, true, true⟩
  refine shared_ext ?_ ?_ ?_ (fun i => ?_) (fun l => ?_) fun _ => hd
  · rw [hw.nLoc, hv.nLoc]; exact (congrArg World.nLoc h :)
  · rw [hw.nLink, hv.nLink]; exact (congrArg World.nLink h :)
  · rw [hw.time, hv.time]; exact (congrArg World.time h :)
  · have k1 : ∀ l : Loc, l.shared = { l.fixed.shared with score := l.score } := fun _ => rfl
    have k2 : ∀ l : Loc, l.fixed.shared = { l.shared with score := 0 } := fun _ => rfl
    rw [k1, k1 (v'.loc i), hw.loc, hv.loc, k2, k2 (v.loc i), shared_loc_eq h i, hs]
  · rw [hw.link, hv.link]; exact shared_link_eq h l

theorem Ready.tied {c : Cfg} {w v : World} {a : Agent} (h : Ready c w a) (e : w.tied c = v.tied c) : Ready c v a := by
  refine ⟨h.closed.blur (tied_blur e), h.uncapped.blur (tied_blur e), ?_, h.travel, h.alive⟩
  have h1 : w.nLoc = v.nLoc := (congrArg World.nLoc (tied_plain e) :)
  have h2 : w.nLink = v.nLink := (congrArg World.nLink (tied_plain e) :)
  have := h.place
  cases hp : a.place <;> simpa only [hp, PlaceOK, h1, h2] using this

theorem Inv.ready {c : Cfg} {w : World} {as : List Agent} (h : Inv w as) (ha : Alive as) (hu : Uncapped c w) :
    ∀ a ∈ as, Ready c w a :=
  fun a h' => ⟨h.closed, hu, h.places a h', h.travel a h', ha a h'⟩

theorem sinkAll_none {w v : World} (hc : ∀ i, (w.loc i).camp = (v.loc i).camp) : ∀ {as : List Agent},
    as.forM (parSinkOne v) = .ok () → sinkAll w as = (w, as)
  | [], _ => rfl
  | a :: as, h => by
    change (parSinkOne v a >>= fun _ => as.forM (parSinkOne v)) = _ at h
    rw [Except.bind_eq_ok] at h
    obtain ⟨_, h1, h2⟩ := h
    have e : sinkOne w a = (w, a) := by
      unfold parSinkOne at h1
      unfold sinkOne
      split at h1
      · rename_i ht; rw [if_pos ht]
      · rename_i ht
        rw [if_neg ht]
        cases hp : a.place with
        | link l => rfl
        | gone l => rfl
        | loc i =>
          rw [hp] at h1
          dsimp only at h1 ⊢
          rw [hc]
          split at h1
          · simp at h1
          · rename_i hn; rw [if_neg hn]
    simp only [sinkAll, e, sinkAll_none hc h2]

/-- A step of a process and the sequential step from the same state. -/
theorem parEvolve_seq {c : Cfg} {m : ParMode} {fuel k : Nat} {ps ps' : Nat → Proc}
    (hm : m.scores ≠ .other) (hi : ParInv k ps) (hb : ∀ p < k, ∀ q < k, (ps p).e.w.bare = (ps q).e.w.bare)
    (h : parEvolve c m fuel k ps = .ok ps') {p : Nat} (hp : p < k) {e : Eco} (hu : Uncapped c e.w)
    (ha : e.agents = (ps p).e.agents) (hw : e.w.plain = (ps p).e.w.plain)
    (hf : c.fixedRoutes = false ∨ (m.scores = .classic ∧ (ps p).e.w.time ≠ 0 ∧ e.w = (ps p).e.w)) {sw : List ℚ}
    (hsw : refreshSpawnWeights c e.w = .ok sw) :
    ∃ e', e.evolve c fuel = .ok e' ∧ e'.agents = (ps' p).e.agents ∧ e'.w.plain = (ps' p).e.w.plain ∧
      e'.closures = e.closures ∧ (ps' p).e.closures = (ps p).e.closures := by
  obtain ⟨p1, p2, p3, p4, p5, p6, p7, h1, h2, h3, h4, h5, h6, h7, h8⟩ := parEvolve_parts h
  have a1 : AllRescored k ps p1 := eachWorld_rescored (f := fun p r => initialScores c k p r.e.w)
    (fun _ _ _ => initialScores_rescored) h1
  have a2 := scorePhase_rescored h2
  have i2 := (hi.rescored a1).rescored a2
  have i3 := i2.spawn h3
  have i4 := i3.decide h4
  have i5 := i4.exchange h5
  have hb1 : ∀ p < k, ∀ q < k, (p1 p).e.w.bare = (p1 q).e.w.bare := by
    intro p hp q hq
    obtain ⟨_, ra, ea⟩ := a1 p hp
    obtain ⟨_, rb, eb⟩ := a1 q hq
    rw [ea, eb]
    exact ra.bare.trans ((hb p hp q hq).trans rb.bare.symm)
  have hsc := scorePhase_scores hm hb1 h2 p hp
  obtain ⟨w1, r1, e1⟩ := a1 p hp
  obtain ⟨w2, r2, e2⟩ := a2 p hp
  obtain ⟨-, f, e3⟩ := spawnPhase_ok h3 p hp
  obtain ⟨s4, as4, g4, e4⟩ := decide_ok ((eachProc_ok h4).1 p hp)
  obtain ⟨_, _, e5, -⟩ := (exchange_ok h5).1 p hp
  obtain ⟨s6, as6, g6, e6⟩ := finish_ok ((eachProc_ok h6).1 p hp)
  obtain ⟨_, _, e7, -⟩ := (exchange_ok h7).1 p hp
  obtain ⟨e8, c8⟩ := sinks_ok ((eachProc_ok h8).1 p hp)
  -- scores
  have hw1 : initialScores c k p (ps p).e.w = .ok w1 := by
    have h0 := (eachProc_ok h1).1 p hp
    simp only [Except.bind_eq_ok, Except.pure_eq_ok] at h0
    obtain ⟨w, h0, h0'⟩ := h0
    rw [e1] at h0'
    rw [h0, show w = w1 from (congrArg (fun r : Proc => r.e.w) h0' :)]
  have hn : e.w.nLoc = (ps p).e.w.nLoc := (congrArg World.nLoc hw :)
  have ht : e.w.time = (ps p).e.w.time := (congrArg World.time hw :)
  have hbare : e.w.bare = (ps p).e.w.bare := (congrArg World.bare hw :)
  rw [e2, e1] at hsc
  dsimp only [Proc.setWorld] at hsc
  have hsc' : ∀ i, (i < e.w.nLoc → locationScore c e.w.time (e.w.loc i) = .ok (w2.loc i).score) ∧
      (e.w.nLoc ≤ i → (w2.loc i).score = (e.w.loc i).score) := by
    intro i
    obtain ⟨x, y⟩ := hsc i
    rw [r1.nLoc, r1.time, fixed_score (r1.loc i)] at x
    rw [r1.nLoc] at y
    refine ⟨fun hi => ?_, fun hi => ?_⟩
    · rw [bare_score hbare i, ht, x (hn ▸ hi)]
    · rw [y (hn ▸ hi), initialScores_beyond hw1 (hn ▸ hi)]
      exact ((congrArg (fun v : World => (v.loc i).score) hw :)).symm
  rw [e1] at r2
  have r12 : Rescored (ps p).e.w w2 := r1.trans r2
  obtain ⟨v2, hv2', hpl2⟩ : ∃ v2, updateScores c e.w = .ok v2 ∧ v2.tied c = w2.tied c := by
    rcases hf with hf | ⟨hc, hnt, hew⟩
    · have d1 := initialScores_still hf hw1
      have hd2 := scorePhase_still hf h2 p hp
      rw [e2, e1] at hd2
      dsimp only [Proc.setWorld] at hd2
      obtain ⟨v2, hv2⟩ := scores_return hf (l := List.range e.w.nLoc) (w := e.w)
        (fun i hi => ⟨_, (hsc' i).1 (List.mem_range.mp hi)⟩)
      have hv2' : updateScores c e.w = .ok v2 := hv2
      refine ⟨v2, hv2', tied_free hf (rescored_plain (updateScores_rescored hv2') r12 hw (fun i => ?_) ?_)⟩
      · obtain ⟨x, y⟩ := updateScores_scores hv2' i
        by_cases hi : i < e.w.nLoc
        · have := x hi
          rw [(hsc' i).1 hi, Except.ok.injEq] at this
          exact this.symm
        · rw [y (by omega), (hsc' i).2 (by omega)]
      · rw [updateScores_still hf hv2', hd2, d1]
        exact plain_draws hw
    · rw [initialScores, if_neg hnt, Except.ok.injEq] at hw1
      rw [scorePhase, hc] at h2
      have h0 := (eachProc_ok h2).1 p hp
      simp only [Except.bind_eq_ok, Except.pure_eq_ok] at h0
      obtain ⟨w, h0, h0'⟩ := h0
      rw [e2] at h0'
      rw [e1] at h0
      dsimp only [Proc.setWorld] at h0
      have hww : w = w2 := (congrArg (fun r : Proc => r.e.w) h0' :)
      exact ⟨w2, by rw [hew, hw1, h0, hww], rfl⟩
  have rv := updateScores_rescored hv2'
  -- decisions
  have hu2 : Uncapped c v2 := by
    intro i hi
    rw [show (v2.loc i).capacity = (e.w.loc i).capacity from (congrArg Loc.capacity (rv.loc i) :)]
    exact hu i (rv.nLoc ▸ hi)
  have hpl3 : (p3 p).e.w.tied c = v2.tied c := by
    rw [hpl2, e3, e2]
    exact Prod.ext rfl (funext fun i => by
      simp only [World.routesOf, Proc.setWorld]
      split <;> rfl)
  have ha3 : (p3 p).e.agents = e.agents := by rw [ha, e3, e2, e1]; rfl
  have hu3 : Uncapped c (p3 p).e.w := hu2.blur (tied_blur hpl3).symm
  have ready3 : ∀ a ∈ (p3 p).e.agents, Ready c v2 a := fun a ha =>
    ((i3 p hp).1.ready (i3 p hp).2 hu3 a ha).tied hpl3
  have q4 := parEvolveAll_seq (s := ⟨(p3 p).e.w, (p3 p).seen⟩) ready3 hpl3
  rw [g4] at q4
  rcases q4.cases with ⟨x, y, -⟩ | ⟨s, v4, as, y, g4', hpl4⟩
  · simp at y
  simp only [Except.ok.injEq, Prod.mk.injEq] at y
  obtain ⟨rfl, rfl⟩ := y
  -- journeys
  have hw5 : (p5 p).e.w = s4.w := by rw [e5, e4]
  have ha5 : (p5 p).e.agents = as4 := by rw [e5, e4]
  have hu5 : Uncapped c (p5 p).e.w := by
    have hc := (parEvolveAll_step g4 (i3 p hp).1.travel (i3 p hp).2).1
    intro i hi
    rw [hw5] at hi ⊢
    rw [show (s4.w.loc i).capacity = ((p3 p).e.w.loc i).capacity from (congrArg Loc.capacity (hc.locCore i) :)]
    exact hu3 i (hc.nLoc ▸ hi)
  have hpl5 : (p5 p).e.w.tied c = v4.tied c := hw5 ▸ hpl4
  have ready5 : ∀ a ∈ (p5 p).e.agents, Ready c v4 a := fun a ha =>
    ((i5 p hp).1.ready (i5 p hp).2 hu5 a ha).tied hpl5
  have q6 := parFinishAll_seq (s := ⟨(p5 p).e.w, (p5 p).seen⟩) (fuel := fuel) ready5 hpl5
  rw [g6] at q6
  rcases q6.cases with ⟨x, y, -⟩ | ⟨s, v6, as, y, g6', hpl6⟩
  · simp at y
  simp only [Except.ok.injEq, Prod.mk.injEq] at y
  obtain ⟨rfl, rfl⟩ := y
  replace hpl6 := tied_plain hpl6
  have hw7 : (p7 p).e.w = s6.w := by rw [e7, e6]
  have ha7 : (p7 p).e.agents = as6.map (updateRecent c) := by rw [e7, e6]
  have hsink : (if c.campsAreSinks then sinkAll v6 (as6.map (updateRecent c)) else (v6, as6.map (updateRecent c))) =
      (v6, as6.map (updateRecent c)) := by
    split
    · rename_i hc
      have := c8 hc
      rw [ha7, hw7] at this
      exact sinkAll_none (w := v6) (v := s6.w) (fun i => (congrArg (fun v : World => (v.loc i).camp) hpl6 :).symm) this
    · rfl
  rw [ha3] at g4'
  rw [ha5] at g6'
  refine ⟨{ e with w := { v6 with time := v6.time + 1 }, agents := as6.map (updateRecent c), spawnWeights := sw }, ?_, ?_, ?_,
    rfl, ?_⟩
  · simp only [Eco.evolve, hsw, hv2']
    show (evolveAll c v2 e.agents >>= _) = _
    rw [g4']
    show (finishAll c fuel v4 as4 >>= _) = _
    rw [g6']
    show Except.ok _ = Except.ok _
    rw [hsink]
  · rw [e8]
    exact ha7.symm
  · rw [e8]
    show _ = ({ (p7 p).e.w with time := (p7 p).e.w.time + 1 } : World).plain
    rw [hw7]
    exact (congrArg (fun v : World => { v with time := v.time + 1 }) hpl6.symm :)
  · rw [e8, e7, e6, e5, e4, e3, e2, e1]
    rfl

theorem plain_same {w v : World} (h : w.plain = v.plain) : SameWorld w v := by
  refine ⟨(congrArg World.nLoc h :), (congrArg World.nLink h :), (congrArg World.time h :), plain_draws h, fun i => ?_, ?_⟩
  · exact (@shared_loc_eq ⟨true, true, true⟩ _ _ h i :)
  · funext l
    exact (@shared_link_eq ⟨true, true, true⟩ _ _ h l :)

/-! ### A program on one process -/

theorem clear_seq {names : List String} : ∀ {as kept : List Agent} {w v v' : World} {s : World × List Agent},
    w.plain = v.plain → as.foldlM (parClearStep names) (w, kept) = .ok s → clearLocations names v as = .ok v' →
    s.2 = kept ∧ s.1.plain = v'.plain
  | [], kept, w, v, v', s, h, hs, hv => by
    simp only [List.foldlM_nil, Except.pure_eq_ok] at hs
    simp only [clearLocations, Except.ok.injEq] at hv
    rw [← hs, ← hv]
    exact ⟨rfl, h⟩
  | a :: as, kept, w, v, v', s, h, hs, hv => by
    have hn : w.placeName a.place = v.placeName a.place :=
      (congrArg (fun w : World => w.placeName a.place) h :)
    rw [List.foldlM_cons, Except.bind_eq_ok] at hs
    obtain ⟨s1, h1, h2⟩ := hs
    unfold parClearStep at h1
    unfold clearLocations at hv
    dsimp only at h1
    rw [hn] at h1
    split at hv
    · cases hv
    · rename_i n hn'
      rw [hn'] at h1
      split at hv
      · rename_i hm
        dsimp only at h1
        rw [if_pos hm] at h1
        cases h1
        exact clear_seq (plain_decr h _) h2 hv
      · cases hv

theorem twins_reach {P : World → Prop} {c : Cfg} {m : ParMode} {draws : Nat → ℚ} {ps : Nat → Proc} {e : Eco}
    (h : Twins P c m draws ps e) : ParReach c m 1 (fun _ => draws) ps := by
  induction h with
  | start => exact .start
  | step op _ _ hp _ ih => exact .step op ih hp

theorem twins_seq {c : Cfg} {m : ParMode} {draws : Nat → ℚ} {ps : Nat → Proc} {e : Eco} (hf : c.fixedRoutes = false)
    (hm : m.scores ≠ .other) (h : Twins (Uncapped c) c m draws ps e) :
    e.agents = (ps 0).e.agents ∧ e.w.plain = (ps 0).e.w.plain ∧ e.closures = (ps 0).e.closures := by
  induction h with
  | start => exact ⟨rfl, rfl, rfl⟩
  | @step ps ps' e e' op ht hu hp he ih =>
    obtain ⟨h1, h2, h3⟩ := ih
    have hr := twins_reach ht
    have ins : ∀ {r r' : Proc} {e e' : Eco} {i : Nat} {attrs : List (String × String)}, e.agents = r.e.agents →
        e.w.plain = r.e.w.plain → e.closures = r.e.closures → r.insertAgent 1 0 i attrs = .ok r' →
        e.insertAgent i attrs = .ok e' →
        e'.agents = r'.e.agents ∧ e'.w.plain = r'.e.w.plain ∧ e'.closures = r'.e.closures := by
      intro r r' e e' i attrs h1 h2 h3 hp he
      have h0 : (r.total + 1) % ((1 : Nat) : Int) = ((0 : Nat) : Int) := by simp
      simp only [Proc.insertAgent, if_pos h0, Except.bind_eq_ok, Except.pure_eq_ok] at hp
      obtain ⟨d, hd, rfl⟩ := hp
      unfold Eco.insertAgent at hd he
      split at hd
      · split at he
        · cases hd; cases he
          exact ⟨by rw [h1], plain_incr h2 _, h3⟩
        · cases he
      · cases hd
    cases op with
    | network op =>
      simp only [ParOp.exec] at hp
      have hp := (eachProc_ok hp).1 0 (by decide)
      split at hp
      · rename_i hn
        simp only [Except.bind_eq_ok, Except.pure_eq_ok] at hp
        obtain ⟨d, hd, hp⟩ := hp
        rw [← hp]
        have := @exec_alike ⟨true, true, true⟩ _ _ _ _ _ _ (fun _ => hf) hn h2 h3 he hd
        exact ⟨by rw [network_agents hn he, network_agents hn hd, h1], this⟩
      · cases hp
    | insertAgent i attrs =>
      simp only [ParOp.exec] at hp
      exact ins h1 h2 h3 ((eachProc_ok hp).1 0 (by decide)) he
    | addAgent i attrs =>
      simp only [ParOp.exec] at hp
      have hp := (eachProc_ok hp).1 0 (by decide)
      simp only [Proc.addAgent] at hp
      simp only [callOn, Op.exec, Eco.addAgent] at he
      split at hp
      · split at he
        · split at hp
          · rename_i ht
            rw [if_pos ht] at he
            split at hp
            · rename_i hpop
              refine ins ?_ ?_ ?_ hp he
              · exact h1
              · let _ : ScoresCount := ⟨true, true, true⟩
                show (e.w.setLoc _ _).shared = ((ps 0).e.w.setLoc _ _).shared
                have hl := shared_loc_eq h2 (i 0)
                have hq : (e.w.loc (i 0)).pop = ((ps 0).e.w.loc (i 0)).pop := (congrArg Loc.pop hl :)
                rw [shared_setLoc, shared_setLoc]
                refine congrArg₂ (fun w l => World.setLoc w (i 0) l) h2 ?_
                rw [hq, if_pos (by omega)]
                exact (congrArg (fun l : Loc => { l with pop := ((ps 0).e.w.loc (i 0)).pop - 1 }) hl :)
              · exact h3
            · cases hp
          · rename_i ht
            rw [if_neg ht] at he
            exact ins h1 h2 h3 hp he
        · cases he
      · cases hp
    | clearLocations names =>
      simp only [ParOp.exec, Except.bind_eq_ok] at hp
      obtain ⟨p1, hp1, hp2⟩ := hp
      obtain ⟨_, _, e2, -⟩ := (exchange_ok hp2).1 0 (by decide)
      have hp1 := (eachProc_ok hp1).1 0 (by decide)
      simp only [Proc.clear, Except.bind_eq_ok, Except.pure_eq_ok] at hp1
      obtain ⟨s, hs, hp1⟩ := hp1
      simp only [callOn, Op.exec, Except.bind_eq_ok, Except.pure_eq_ok] at he
      obtain ⟨v', hv, rfl⟩ := he
      rw [h1] at hv
      obtain ⟨g1, g2⟩ := clear_seq h2.symm hs hv
      rw [e2, ← hp1]
      exact ⟨g1.symm, g2.symm, h3⟩
    | evolve fuel =>
      have hsw : ∃ sw, refreshSpawnWeights c e.w = .ok sw := by
        simp only [callOn, Op.exec, Eco.evolve, Except.bind_eq_ok] at he
        obtain ⟨sw, hsw, -⟩ := he
        exact ⟨sw, hsw⟩
      obtain ⟨sw, hsw⟩ := hsw
      obtain ⟨e1, g1, g2, g3, g4, g5⟩ := parEvolve_seq hm (parReach_inv hr) (fun p hp q hq => (reach_bare hr p hp q hq).1) hp
        (p := 0) (by decide) (hu fuel rfl) h1 h2 (.inl hf) hsw
      have he' : e.evolve c fuel = .ok e' := he
      rw [g1, Except.ok.injEq] at he'
      subst he'
      exact ⟨g2, g3, by rw [g4, g5, h3]⟩

end Flee
