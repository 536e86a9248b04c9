import Verif.Lemmas.AloneScore
import Verif.Lemmas.Refine
import Verif.Spec.Alone

/-!
Where no location has a capacity that counts, an agent does not notice the other agents.
-/

namespace Flee.Alone

open Spec

variable {c : Cfg}

/-! ### Random numbers -/

/-- First the numbers of the list, then those of the stream. -/
def feed : List ℚ → (Nat → ℚ) → Nat → ℚ
  | [], r => r
  | u :: us, r => fun k => match k with
    | 0 => u
    | k + 1 => feed us r k

theorem feed_append : ∀ (us vs : List ℚ) (r : Nat → ℚ), feed (us ++ vs) r = feed us (feed vs r)
  | [], _, _ => rfl
  | u :: us, vs, r => by
    rw [List.cons_append, feed, feed, feed_append us vs r]

theorem feed_cons (d : Nat → ℚ) : d = feed [d 0] fun k => d (k + 1) := by
  funext k
  cases k <;> rfl

theorem feed_shift : ∀ (n : Nat) (r : Nat → ℚ) (k : Nat), feed (List.replicate n 0) r (k + n) = r k
  | 0, _, _ => rfl
  | n + 1, r, k => by
    rw [List.replicate_succ]
    exact feed_shift n r k

theorem feed_unit : ∀ {us : List ℚ} {r : Nat → ℚ}, InUnit (feed us r) ↔ (∀ u ∈ us, 0 ≤ u ∧ u < 1) ∧ InUnit r
  | [], r => by simp [feed]
  | u :: us, r => by
    rw [List.forall_mem_cons, and_assoc, ← feed_unit (us := us)]
    exact ⟨fun h => ⟨h 0, fun k => h (k + 1)⟩, fun ⟨h1, h2⟩ k => by cases k <;> [exact h1; exact h2 _]⟩

/-! ### Computations that see nothing but the ghost of the world -/

/-- What a computation gives in every world with the ghost of `w₀` whose random numbers begin with `us`. -/
def Can {α : Type} (c : Cfg) (w₀ : World) (f : World → Except Err (World × α)) (x : α) (us : List ℚ) : Prop :=
  ∀ v rest, ghost c v = ghost c w₀ → v.draws = feed us rest →
    ∃ v', f v = .ok (v', x) ∧ ghost c v' = ghost c w₀ ∧ v'.draws = rest

/-- What a computation does with the random numbers it reads one after the other: it ends with a result, fails, or reads a number and goes on. -/
inductive Tree (α : Type) where
  | leaf (x : α)
  | fail
  | node (g : ℚ → Tree α)

instance {α : Type} : Nonempty (Tree α) := ⟨.fail⟩

/-- The result for these random numbers, and the numbers left over. -/
def Tree.run {α : Type} : Tree α → (Nat → ℚ) → Option (α × (Nat → ℚ))
  | .leaf x, s => some (x, s)
  | .fail, _ => none
  | .node g, s => (g (s 0)).run fun k => s (k + 1)

/-- All results satisfy `Q`. -/
def Tree.All {α : Type} (Q : α → Prop) : Tree α → Prop
  | .leaf x => Q x
  | .fail => True
  | .node g => ∀ u, (g u).All Q

/-- One computation, then another with its result. -/
def Tree.bind {α β : Type} : Tree α → (α → Tree β) → Tree β
  | .leaf x, h => h x
  | .fail, _ => .fail
  | .node g, h => .node fun u => (g u).bind h

theorem Tree.run_bind {α β : Type} : ∀ (T : Tree α) (h : α → Tree β) (s : Nat → ℚ),
    (T.bind h).run s = (T.run s).bind fun p => (h p.1).run p.2
  | .leaf _, _, _ => rfl
  | .fail, _, _ => rfl
  | .node g, h, s => Tree.run_bind (g (s 0)) h _

theorem Tree.all_bind {α β : Type} {Q : α → Prop} {R : β → Prop} {h : α → Tree β} (hh : ∀ x, Q x → (h x).All R) :
    ∀ {T : Tree α}, T.All Q → (T.bind h).All R
  | .leaf x, k => hh x k
  | .fail, _ => trivial
  | .node _, k => fun u => Tree.all_bind hh (k u)

theorem Tree.all_run {α : Type} {Q : α → Prop} : ∀ {T : Tree α} {s r : Nat → ℚ} {x : α}, T.All Q → T.run s = some (x, r) → Q x
  | .leaf _, _, _, _, h, e => by cases e; exact h
  | .fail, _, _, _, _, e => by cases e
  | .node g, s, _, _, h, e => Tree.all_run (T := g (s 0)) (h _) e

theorem Tree.path {α : Type} : ∀ {T : Tree α} {s r : Nat → ℚ} {x : α}, T.run s = some (x, r) →
    ∃ us, s = feed us r ∧ ∀ rest, T.run (feed us rest) = some (x, rest)
  | .leaf _, _, _, _, e => by cases e; exact ⟨[], rfl, fun _ => rfl⟩
  | .fail, _, _, _, e => by cases e
  | .node g, s, _, _, e => by
    obtain ⟨us, h1, h2⟩ := Tree.path (T := g (s 0)) e
    refine ⟨s 0 :: us, ?_, h2⟩
    rw [feed_cons s, h1]
    rfl

/-- In worlds with the ghost of `w₀` the computation does what the tree says, and changes nothing else. -/
def Walks {α : Type} (c : Cfg) (w₀ : World) (T : Tree α) (f : World → Except Err (World × α)) : Prop :=
  ∀ w, ghost c w = ghost c w₀ → (T.run w.draws = none ∧ ∃ x, f w = .error x) ∨
    ∃ x w', T.run w.draws = some (x, w'.draws) ∧ f w = .ok (w', x) ∧ ghost c w' = ghost c w₀

/-- The computation sees nothing but the ghost of the world and random numbers, changes nothing else, and its results satisfy `Q`. -/
def Lone {α : Type} (c : Cfg) (w₀ : World) (Q : α → Prop) (f : World → Except Err (World × α)) : Prop :=
  ∃ T : Tree α, T.All Q ∧ Walks c w₀ T f

section

variable {w₀ : World} {α β : Type} {Q : α → Prop} {R : β → Prop}

theorem Can.bind {f : World → Except Err (World × α)} {g : α → World → Except Err (World × β)} {x : α} {y : β}
    {us vs : List ℚ} (hf : Can c w₀ f x us) (hg : Can c w₀ (g x) y vs) :
    Can c w₀ (fun w => f w >>= fun r => g r.2 r.1) y (us ++ vs) := by
  intro v rest hv hd
  rw [feed_append] at hd
  obtain ⟨v1, h1, h2, h3⟩ := hf v _ hv hd
  obtain ⟨v2, g1, g2, g3⟩ := hg v1 rest h2 h3
  exact ⟨v2, by simp only [h1]; exact g1, g2, g3⟩

theorem Lone.spec {f : World → Except Err (World × α)} (h : Lone c w₀ Q f) {w w' : World} {x : α} (hw : ghost c w = ghost c w₀)
    (e : f w = .ok (w', x)) : Q x ∧ ghost c w' = ghost c w₀ ∧ ∃ us, w.draws = feed us w'.draws ∧ Can c w₀ f x us := by
  obtain ⟨T, ha, hT⟩ := h
  obtain ⟨-, y, k⟩ | ⟨y, v, k1, k2, k3⟩ := hT w hw
  · rw [e] at k; cases k
  rw [e] at k2
  cases k2
  obtain ⟨us, h1, h2⟩ := Tree.path k1
  refine ⟨Tree.all_run ha k1, k3, us, h1, fun v rest hv hd => ?_⟩
  obtain ⟨k, -⟩ | ⟨y, v', k1, k2, k3⟩ := hT v hv
  · rw [hd, h2] at k; cases k
  · rw [hd, h2] at k1
    cases k1
    exact ⟨v', k2, k3, rfl⟩

theorem Walks.bind {T : Tree α} {S : α → Tree β} {f : World → Except Err (World × α)} {g : α → World → Except Err (World × β)}
    (hf : Walks c w₀ T f) (hg : ∀ x, Q x → Walks c w₀ (S x) (g x)) (ha : T.All Q) :
    Walks c w₀ (T.bind S) (fun w => f w >>= fun r => g r.2 r.1) := by
  intro w hw
  obtain ⟨k, y, e⟩ | ⟨x, v, k1, k2, k3⟩ := hf w hw
  · exact .inl ⟨by rw [Tree.run_bind, k]; rfl, y, by simp only [e]; rfl⟩
  · obtain ⟨l, y, e⟩ | ⟨y, v', l1, l2, l3⟩ := hg x (Tree.all_run ha k1) v k3
    · exact .inl ⟨by rw [Tree.run_bind, k1]; exact l, y, by simp only [k2]; exact e⟩
    · exact .inr ⟨y, v', by rw [Tree.run_bind, k1]; exact l1, by simp only [k2]; exact l2, l3⟩

theorem Lone.bind {f : World → Except Err (World × α)} {g : α → World → Except Err (World × β)}
    (hf : Lone c w₀ Q f) (hg : ∀ x, Q x → Lone c w₀ R (g x)) : Lone c w₀ R (fun w => f w >>= fun r => g r.2 r.1) := by
  obtain ⟨T, ha, hT⟩ := hf
  choose! S hS using hg
  exact ⟨T.bind S, Tree.all_bind (fun x hx => (hS x hx).1) ha, hT.bind (fun x hx => (hS x hx).2) ha⟩

theorem Walks.pure {x : α} : Walks c w₀ (.leaf x) (fun w => .ok (w, x)) := fun w hw => .inr ⟨x, w, rfl, rfl, hw⟩

theorem Lone.pure {x : α} (h : Q x) : Lone c w₀ Q (fun w => .ok (w, x)) := ⟨.leaf x, h, .pure⟩

theorem Lone.error {x : Err} : Lone c w₀ Q (fun _ => .error x) := ⟨.fail, trivial, fun _ _ => .inl ⟨rfl, x, rfl⟩⟩

theorem Lone.congr {f g : World → Except Err (World × α)} (h : Lone c w₀ Q f) (e : ∀ w, ghost c w = ghost c w₀ → g w = f w) :
    Lone c w₀ Q g := by
  obtain ⟨T, ha, hT⟩ := h
  refine ⟨T, ha, fun w hw => ?_⟩
  rw [e w hw]
  exact hT w hw

theorem Lone.draw : Lone c w₀ (fun _ => True) (fun w => .ok (w.draw.2, w.draw.1)) :=
  ⟨.node fun u => .leaf u, fun _ => trivial, fun w hw => .inr ⟨w.draw.1, w.draw.2, rfl, rfl, hw⟩⟩

theorem ghost_decr (w : World) (p : Place) : ghost c (w.decr p) = ghost c w := by
  cases p with
  | loc i =>
    simp only [World.decr, ghost, veil_setLoc]
    have : veilLoc c.fixedRoutes { w.loc i with numAgents := (w.loc i).numAgents - 1 } = (ghost c w).loc i := rfl
    rw [this]
    simp only [World.setLoc, ghost, upd_eta]
  | link l =>
    simp only [World.decr, ghost, veil, World.setLink]
    congr 1
    funext j
    unfold upd
    split
    · rename_i e; subst e; rfl
    · rfl
  | gone i => rfl

theorem ghost_incr (w : World) (p : Place) : ghost c (w.incr p) = ghost c w := by
  cases p with
  | loc i =>
    simp only [World.incr, ghost, veil_setLoc]
    have : veilLoc c.fixedRoutes { w.loc i with numAgents := (w.loc i).numAgents + 1 } = (ghost c w).loc i := rfl
    rw [this]
    simp only [World.setLoc, ghost, upd_eta]
  | link l =>
    simp only [World.incr, ghost, veil, World.setLink]
    congr 1
    funext j
    unfold upd
    split
    · rename_i e; subst e; rfl
    · rfl
  | gone i => rfl

theorem draws_decr (w : World) (p : Place) : (w.decr p).draws = w.draws := by cases p <;> rfl

theorem draws_incr (w : World) (p : Place) : (w.incr p).draws = w.draws := by cases p <;> rfl

theorem Lone.travel {Q : Agent → Prop} {a : Agent} {p : Place} {t : Bool}
    (h : Q { a with place := p, travelling := t, dtol := 0 }) : Lone c w₀ Q (fun w => .ok (handleTravel w a p t)) := by
  refine ⟨.leaf { a with place := p, travelling := t, dtol := 0 }, h, fun w hw => .inr ⟨_, (w.decr a.place).incr p, ?_, rfl, ?_⟩⟩
  · rw [draws_incr, draws_decr]; rfl
  · rw [ghost_incr, ghost_decr, hw]

end

/-! ### What agents read -/

/-- A world in which agents cannot notice each other. -/
structure Fit (c : Cfg) (w : World) : Prop where
  closed : Closed w
  uncapped : Uncapped c w

theorem ghost_nLoc {v w : World} (h : ghost c v = ghost c w) : v.nLoc = w.nLoc := (congrArg World.nLoc h :)

theorem ghost_nLink {v w : World} (h : ghost c v = ghost c w) : v.nLink = w.nLink := (congrArg World.nLink h :)

theorem ghost_time {v w : World} (h : ghost c v = ghost c w) : v.time = w.time := (congrArg World.time h :)

theorem ghost_loc {v w : World} (h : ghost c v = ghost c w) (i : Nat) : veilLoc c.fixedRoutes (v.loc i) = veilLoc c.fixedRoutes (w.loc i) :=
  (congrFun (congrArg World.loc h :) i :)

theorem ghost_link {v w : World} (h : ghost c v = ghost c w) (l : Nat) :
    { v.link l with numAgents := 0, cumNumAgents := 0 } = { w.link l with numAgents := 0, cumNumAgents := 0 } :=
  (congrFun (congrArg World.link h :) l :)

theorem Fit.ghost {v w : World} (h : Fit c w) (e : ghost c v = ghost c w) : Fit c v := by
  have h1 := ghost_nLoc e
  have h2 := ghost_nLink e
  refine ⟨⟨fun i hi l hl => ?_, fun l hl => ?_⟩, fun i hi => ?_⟩
  · have : (v.loc i).links = (w.loc i).links := (congrArg Loc.links (ghost_loc e i) :)
    rw [h2]; exact h.closed.mem i (h1 ▸ hi) l (this ▸ hl)
  · have h3 : (v.link l).start = (w.link l).start := (congrArg Lnk.start (ghost_link e l) :)
    have h4 : (v.link l).endp = (w.link l).endp := (congrArg Lnk.endp (ghost_link e l) :)
    rw [h3, h4, h1]; exact h.closed.ends l (h2 ▸ hl)
  · have : (v.loc i).capacity = (w.loc i).capacity := (congrArg Loc.capacity (ghost_loc e i) :)
    rw [this]; exact h.uncapped i (h1 ▸ hi)

theorem linkWeight_ghost {w : World} {score score' : Loc → Except Err ℚ} (hw : Fit c w)
    (hs : ∀ l, score' (veilLoc c.fixedRoutes l) = score l) : ∀ (fuel l : Nat) (prior : ℚ) (origin : List String) (step : Int),
    l < w.nLink → linkWeight c (ghost c w) score' fuel l prior origin step = linkWeight c w score fuel l prior origin step
  | 0, _, _, _, _, _ => rfl
  | fuel + 1, l, prior, origin, step, hl => by
    have he := (hw.closed.ends l hl).2
    have hown : ownCandidate c (ghost c w) score' l prior origin = ownCandidate c w score l prior origin := by
      have e1 := uncapped_multiplier (hw.uncapped _ he)
      have e2 : getCapMultiplier c (veilLoc c.fixedRoutes (w.loc (w.link l).endp)) = .ok 1 :=
        uncapped_multiplier (l := veilLoc c.fixedRoutes (w.loc (w.link l).endp)) (hw.uncapped _ he)
      have hs' := hs (w.loc (w.link l).endp)
      simp only [ownCandidate]
      show (if (w.loc (w.link l).endp).marker = true then _ else _) = _
      split
      · rfl
      · show (score' (veilLoc c.fixedRoutes (w.loc (w.link l).endp)) >>= fun s =>
          candidateWeight c s (veilLoc c.fixedRoutes (w.loc (w.link l).endp)) (w.link l).dist prior >>= _) = _
        rw [hs']
        simp only [candidateWeight, e1, e2]
        rfl
    rw [linkWeight, linkWeight, hown]
    cases ownCandidate c w score l prior origin with
    | error e => rfl
    | ok base =>
      suffices H : ∀ st : Int, (if c.awareness > st then (w.loc (w.link l).endp).links.foldlM (fun acc lel =>
          if (w.epName lel).val ∈ origin then .ok acc
          else (linkWeight c (ghost c w) score' fuel lel (prior + (w.link l).dist) (origin ++ [(w.loc (w.link l).endp).name.val])
            (st + 1)).map (fun r => (acc.1 ++ r.1, acc.2 ++ r.2))) base else .ok base) =
          (if c.awareness > st then (w.loc (w.link l).endp).links.foldlM (fun acc lel =>
          if (w.epName lel).val ∈ origin then .ok acc
          else (linkWeight c w score fuel lel (prior + (w.link l).dist) (origin ++ [(w.loc (w.link l).endp).name.val])
            (st + 1)).map (fun r => (acc.1 ++ r.1, acc.2 ++ r.2))) base else .ok base) from H _
      intro st
      split
      · refine foldlM_alike fun acc lel hm => ?_
        split
        · rfl
        · rw [linkWeight_ghost hw hs fuel lel _ _ _ (hw.closed.mem _ he lel hm)]
      · rfl

theorem endPointScore_ghost (w : World) (a : Agent) (l : Loc) :
    c.endPointScore (ghost c w) a (veilLoc c.fixedRoutes l) = c.endPointScore w a l := rfl

theorem routeCandidates_veil {w : World} {a : Agent} {i : Nat} (hw : Fit c w) (hi : i < w.nLoc) :
    routeCandidates c (ghost c w) a i = routeCandidates c w a i := by
  unfold routeCandidates
  split
  · rename_i hf
    have e : ((ghost c w).loc i).routes = (w.loc i).routes := by
      simp only [ghost, veil, veilLoc, hf, cond_true]
    rw [e]
    rfl
  · have : allRoutes c (ghost c w) (c.endPointScore (ghost c w) a) i = allRoutes c w (c.endPointScore w a) i := by
      unfold allRoutes
      refine foldlM_alike (l := (w.loc i).links) fun acc l hl => ?_
      rw [← linkWeight_ghost hw (fun l => endPointScore_ghost w a l) w.searchFuel l 0 [(w.loc i).name.val] 1 (hw.closed.mem i hi l hl)]
      rfl
    rw [this]

theorem routeCandidates_ghost {v w : World} {a : Agent} {i : Nat} (hw : Fit c w) (h : ghost c v = ghost c w) (hi : i < w.nLoc) :
    routeCandidates c v a i = routeCandidates c w a i := by
  rw [← routeCandidates_veil (hw.ghost h) (ghost_nLoc h ▸ hi), ← routeCandidates_veil hw hi, h]

theorem takeNextStep_veil {w : World} {r : Option (List Way)} {i : Nat} (hw : Fit c w) :
    takeNextStep c (ghost c w) r i = takeNextStep c w r i := by
  have hd : ∀ d, destIsFullCamp c (ghost c w) d = destIsFullCamp c w d := by
    intro d
    unfold destIsFullCamp
    have e : (List.range (ghost c w).nLoc).find? (fun i => decide (Way.name ((ghost c w).loc i).name.val = d)) =
      (List.range w.nLoc).find? (fun i => decide (Way.name (w.loc i).name.val = d)) := rfl
    rw [e]
    cases h : (List.range w.nLoc).find? (fun i => decide (Way.name (w.loc i).name.val = d)) with
    | none => rfl
    | some i =>
      have hi : i < w.nLoc := List.mem_range.mp (List.mem_of_find?_eq_some h)
      dsimp only
      rw [uncapped_multiplier (hw.uncapped i hi), uncapped_multiplier (l := (ghost c w).loc i) (hw.uncapped i hi)]
      rfl
  unfold takeNextStep
  have e : ((ghost c w).loc i).links = (w.loc i).links := rfl
  rw [e]
  cases (w.loc i).links with
  | nil => rfl
  | cons k ks =>
    cases r with
    | none => rfl
    | some r =>
      cases r with
      | nil => rfl
      | cons r rs =>
        dsimp only
        have e : (k :: ks).find? (fun l => decide (Way.name ((ghost c w).epName l).val = r)) =
          (k :: ks).find? (fun l => decide (Way.name (w.epName l).val = r)) := rfl
        rw [e, hd]

theorem takeNextStep_ghost {v w : World} {r : Option (List Way)} {i : Nat} (hw : Fit c w) (h : ghost c v = ghost c w) :
    takeNextStep c v r i = takeNextStep c w r i := by
  rw [← takeNextStep_veil (hw.ghost h), ← takeNextStep_veil hw, h]

/-! ### One agent -/

section

variable {w₀ : World} (hw : Fit c w₀)

include hw

theorem lone_selectRoute {a : Agent} {i : Nat} (hi : i < w₀.nLoc) :
    Lone c w₀ (fun _ => True) (fun w => (selectRoute c w a i).map Prod.swap) := by
  unfold selectRoute
  by_cases ha : c.awareness = 0
  · by_cases hn : (w₀.loc i).links.length = 0
    · refine Lone.congr (f := fun _ => .error .valueError) .error fun w hg => ?_
      have e : (w.loc i).links = (w₀.loc i).links := (congrArg Loc.links (ghost_loc hg i) :)
      simp only [if_pos ha, e, if_pos hn]; rfl
    · refine Lone.congr (Lone.bind .draw (g := fun u w => .ok (w, some [Way.idx (((u : ℚ) * ((w₀.loc i).links.length : ℚ)).floor.toNat %
        (w₀.loc i).links.length)])) fun x _ => .pure trivial) fun w hg => ?_
      have e : (w.loc i).links = (w₀.loc i).links := (congrArg Loc.links (ghost_loc hg i) :)
      simp only [if_pos ha, e, if_neg hn]; rfl
  · cases hc : routeCandidates c w₀ a i with
    | error x =>
      refine Lone.congr (f := fun _ => .error x) .error fun w hg => ?_
      simp only [if_neg ha, routeCandidates_ghost hw hg hi, hc]; rfl
    | ok x =>
      obtain ⟨ws, rs⟩ := x
      by_cases hl : ws.length = 0
      · refine Lone.congr (f := fun w => .ok (w, none)) (.pure trivial) fun w hg => ?_
        simp only [if_neg ha, routeCandidates_ghost hw hg hi, hc, if_pos hl]; rfl
      · refine Lone.congr (Lone.bind .draw (g := fun u w => match chooseFromWeights ws rs u with
          | .error e => .error e
          | .ok none => .ok (w, none)
          | .ok (some route) => if route.length = 0 then .error .exit else .ok (w, some (route.map Way.name)))
          fun u _ => ?_) fun w hg => ?_
        · cases chooseFromWeights ws rs u with
          | error e => exact .error
          | ok r =>
            cases r with
            | none => exact .pure trivial
            | some route =>
              dsimp only
              by_cases h : route.length = 0
              · simp only [if_pos h]; exact .error
              · simp only [if_neg h]; exact .pure trivial
        · simp only [if_neg ha, routeCandidates_ghost hw hg hi, hc, if_neg hl]
          show Except.map _ (match chooseFromWeights ws rs w.draw.1 with | .error e => _ | .ok none => _ | .ok (some route) => _) =
            (match chooseFromWeights ws rs w.draw.1 with | .error e => _ | .ok none => _ | .ok (some route) => _)
          cases chooseFromWeights ws rs w.draw.1 with
          | error e => rfl
          | ok r =>
            cases r with
            | none => rfl
            | some route =>
              dsimp only
              split <;> rfl

theorem lone_planRoute {a : Agent} {i : Nat} (hi : i < w₀.nLoc) :
    Lone c w₀ (fun _ => True) (fun w => (planRoute c w a i).map Prod.swap) := by
  unfold planRoute
  by_cases h : a.route.length = 0
  · simp only [if_pos h]; exact lone_selectRoute hw hi
  · simp only [if_neg h]; exact .pure trivial

omit hw in
theorem takeNextStep_mem {r : Option (List Way)} {i l : Nat} {rt : List Way} (h : takeNextStep c w₀ r i = .ok (some l, rt)) :
    l ∈ (w₀.loc i).links := by
  unfold takeNextStep at h
  split at h
  · cases h
  · rename_i k ks hk
    split at h
    · cases h
    · cases h
    · split at h
      · cases h
      · rename_i l' hf
        rw [Except.bind_eq_ok] at h
        obtain ⟨b, -, h⟩ := h
        cases b with
        | true => cases h
        | false =>
          obtain ⟨h, -⟩ := Prod.mk.inj (Except.ok.inj h)
          cases h
          exact List.mem_of_find?_eq_some hf

theorem lone_tryDepart {a : Agent} {i : Nat} (hi : i < w₀.nLoc) (hp : PlaceOK w₀ a.place) :
    Lone c w₀ (fun a' => PlaceOK w₀ a'.place) (fun w => tryDepart c w a i) := by
  refine Lone.congr (Lone.bind (lone_planRoute hw (a := a) hi) (g := fun r w =>
    takeNextStep c w₀ r i >>= fun x => match x.1 with
      | none => .ok (w, { a with route := x.2 })
      | some l => .ok (handleTravel w { a with route := x.2 } (.link l) true)) fun r _ => ?_) fun w hg => ?_
  · cases ht : takeNextStep c w₀ r i with
    | error e => exact .error
    | ok x =>
      obtain ⟨d, rt⟩ := x
      cases d with
      | none => exact Lone.pure hp
      | some l => exact Lone.travel (hw.closed.mem i hi l (takeNextStep_mem ht))
  · unfold tryDepart
    cases h : planRoute c w a i with
    | error e => rfl
    | ok x =>
      obtain ⟨r, w1⟩ := x
      obtain ⟨d, rfl⟩ := planRoute_world h
      show (takeNextStep c { w with draws := d } r i >>= _) = (takeNextStep c w₀ r i >>= _)
      rw [takeNextStep_ghost (v := { w with draws := d }) hw hg]
      cases takeNextStep c w₀ r i with
      | error e => rfl
      | ok x =>
        obtain ⟨l, rt⟩ := x
        cases l <;> rfl

theorem lone_personEvolve {a : Agent} {f : Bool} (hp : PlaceOK w₀ a.place) :
    Lone c w₀ (fun a' => PlaceOK w₀ a'.place) (fun w => personEvolve c w a f) := by
  unfold personEvolve
  by_cases ht : a.travelling = true
  · simp only [if_pos ht]; exact .pure hp
  · simp only [if_neg ht]
    cases h : a.place with
    | link l => exact .error
    | gone l => exact .error
    | loc i =>
      have hi : i < w₀.nLoc := by rw [h] at hp; exact hp
      have hm : ∀ w, ghost c w = ghost c w₀ → moveChance c a (w.loc i) w.time f = moveChance c a (w₀.loc i) w₀.time f := by
        intro w hg
        have e : ∀ l : Loc, moveChance c a (veilLoc c.fixedRoutes l) w₀.time f = moveChance c a l w₀.time f := fun _ => rfl
        rw [ghost_time hg, ← e, ghost_loc hg, e]
      cases hc : moveChance c a (w₀.loc i) w₀.time f with
      | error x =>
        refine Lone.congr (f := fun _ => .error x) .error fun w hg => ?_
        simp only [hm w hg, hc]; rfl
      | ok m =>
        refine Lone.congr (Lone.bind .draw (g := fun u w => if u < m then tryDepart c w a i else .ok (w, a)) fun u _ => ?_)
          fun w hg => ?_
        · by_cases hu : u < m
          · simp only [if_pos hu]; exact lone_tryDepart hw hi hp
          · simp only [if_neg hu]; exact .pure hp
        · simp only [hm w hg, hc]; rfl

theorem lone_finishTravel : ∀ (fuel : Nat) {a : Agent}, PlaceOK w₀ a.place →
    Lone c w₀ (fun a' => PlaceOK w₀ a'.place) (fun w => finishTravel c fuel w a)
  | 0, _, _ => .error
  | fuel + 1, a, hp => by
    unfold finishTravel
    by_cases ht : a.travelling = true
    · simp only [if_pos ht]
      cases h : a.place with
      | loc l => exact .error
      | gone l => exact .error
      | link l =>
        have hl : l < w₀.nLink := by rw [h] at hp; exact hp
        obtain ⟨h1, h2⟩ := hw.closed.ends l hl
        refine Lone.congr (Lone.bind .draw (g := fun u w =>
          let k := w₀.link l
          let speed := todaysSpeed c k a u
          let a := { a with dtol := a.dtol + speed, moved := a.moved + speed }
          if a.dtol > k.dist then
            let a := { a with
              places := a.places + 1, moved := a.moved + (k.dist - a.dtol), travelled := a.travelled + k.dist }
            if k.closed then
              .ok (handleTravel w a (.loc k.start) false)
            else
              let evolveMore := decide (a.moved < speed)
              let wa := handleTravel w a (.loc k.endp) false
              if evolveMore then do
                let (w, a) ← personEvolve c wa.1 wa.2 (forceTownMove c wa.2)
                finishTravel c fuel w a
              else .ok wa
          else .ok (w, a)) fun u _ => ?_) fun w hg => ?_
        · dsimp only
          split
          · split
            · exact Lone.travel h1
            · split
              · refine Lone.bind (Lone.travel (Q := fun a' => PlaceOK w₀ a'.place) ?_) (g := fun a' w => do
                  let (w, a) ← personEvolve c w a' (forceTownMove c a')
                  finishTravel c fuel w a) fun a' ha' => ?_
                · exact h2
                · exact Lone.bind (lone_personEvolve hw ha') (g := fun a' w => finishTravel c fuel w a')
                    fun a' ha' => lone_finishTravel fuel ha'
              · exact Lone.travel h2
          · exact Lone.pure hp
        · have e := ghost_link hg l
          have e1 : (w.link l).dist = (w₀.link l).dist := (congrArg Lnk.dist e :)
          have e2 : (w.link l).closed = (w₀.link l).closed := (congrArg Lnk.closed e :)
          have e3 : (w.link l).start = (w₀.link l).start := (congrArg Lnk.start e :)
          have e4 : (w.link l).endp = (w₀.link l).endp := (congrArg Lnk.endp e :)
          have e5 : ∀ u, todaysSpeed c (w.link l) a u = todaysSpeed c (w₀.link l) a u := fun u =>
            (congrArg (fun k => todaysSpeed c k a u) e :)
          simp only [e1, e2, e3, e4, e5]
          cases a
          dsimp only at h
          subst h
          rfl
    · simp only [if_neg ht]; exact .pure hp

theorem lone_evolveOne {a : Agent} (hp : PlaceOK w₀ a.place) : Lone c w₀ (fun a' => PlaceOK w₀ a'.place) (fun w => evolveOne c w a) := by
  unfold evolveOne
  split
  · exact .pure hp
  · exact lone_personEvolve hw hp

theorem lone_finishOne {fuel : Nat} {a : Agent} (hp : PlaceOK w₀ a.place) :
    Lone c w₀ (fun a' => PlaceOK w₀ a'.place) (fun w => finishOne c fuel w a) := by
  unfold finishOne
  split
  · exact .pure hp
  · exact Lone.bind (lone_finishTravel hw fuel hp) (g := fun a w => .ok (w, { a with timesteps := a.timesteps + 1 }))
      fun a' ha' => Lone.pure (Q := fun a' : Agent => PlaceOK w₀ a'.place) (by exact ha')

omit hw in
theorem lone_sinkOne {a : Agent} (hp : PlaceOK w₀ a.place) : Lone c w₀ (fun a' => PlaceOK w₀ a'.place) (fun w => .ok (sinkOne w a)) := by
  unfold sinkOne
  by_cases ht : a.travelling = true
  · simp only [if_pos ht]; exact .pure hp
  · simp only [if_neg ht]
    cases h : a.place with
    | link l => exact .pure hp
    | gone l => exact .pure hp
    | loc i =>
      have hi : PlaceOK w₀ (.gone i) := by rw [h] at hp; exact hp
      by_cases hk : (w₀.loc i).camp = true
      · refine Lone.congr (Lone.bind .draw (g := fun u w => if u < (w₀.loc i).deactProb then .ok (w, { a with place := .gone i })
          else .ok (w, a)) fun u _ => ?_) fun w hg => ?_
        · split
          · exact .pure hi
          · exact .pure hp
        · have e1 : (w.loc i).camp = (w₀.loc i).camp := (congrArg Loc.camp (ghost_loc hg i) :)
          have e2 : (w.loc i).deactProb = (w₀.loc i).deactProb := (congrArg Loc.deactProb (ghost_loc hg i) :)
          simp only [e1, e2, if_pos hk]
          show _ = if w.draw.1 < (w₀.loc i).deactProb then _ else _
          split <;> rfl
      · refine Lone.congr (f := fun w => .ok (w, a)) (.pure hp) fun w hg => ?_
        have e1 : (w.loc i).camp = (w₀.loc i).camp := (congrArg Loc.camp (ghost_loc hg i) :)
        simp only [e1, if_neg hk]

end

/-! ### Lists of agents -/

/-- One agent after the other. -/
def each (f : Agent → World → Except Err (World × Agent)) : List Agent → World → Except Err (World × List Agent)
  | [], w => .ok (w, [])
  | a :: as, w => f a w >>= fun r => each f as r.1 >>= fun s => .ok (s.1, r.2 :: s.2)

theorem evolveAll_each (c : Cfg) : ∀ (as : List Agent) (w : World), evolveAll c w as = each (fun a w => evolveOne c w a) as w
  | [], _ => rfl
  | a :: as, w => by
    rw [evolveAll, each]
    refine congrArg (_ >>= ·) (funext fun r => ?_)
    obtain ⟨w1, a1⟩ := r
    rw [← evolveAll_each c as w1]
    rfl

theorem finishAll_each (c : Cfg) (fuel : Nat) : ∀ (as : List Agent) (w : World),
    finishAll c fuel w as = each (fun a w => finishOne c fuel w a) as w
  | [], _ => rfl
  | a :: as, w => by
    rw [finishAll, each]
    refine congrArg (_ >>= ·) (funext fun r => ?_)
    obtain ⟨w1, a1⟩ := r
    rw [← finishAll_each c fuel as w1]
    rfl

theorem sinkAll_each : ∀ (as : List Agent) (w : World), .ok (sinkAll w as) = each (fun a w => .ok (sinkOne w a)) as w
  | [], _ => rfl
  | a :: as, w => by
    rw [sinkAll, each]
    show _ = (each _ as (sinkOne w a).1 >>= _)
    rw [← sinkAll_each as (sinkOne w a).1]
    rfl

/-- The agent can become another in a phase of the day. -/
def May (c : Cfg) (w₀ : World) (f : Agent → World → Except Err (World × Agent)) (a a' : Agent) : Prop :=
  ∃ us, (∀ u ∈ us, 0 ≤ u ∧ u < 1) ∧ Can c w₀ (f a) a' us

theorem each_may {w₀ : World} {f : Agent → World → Except Err (World × Agent)}
    (hf : ∀ a, PlaceOK w₀ a.place → Lone c w₀ (fun a' => PlaceOK w₀ a'.place) (f a)) : ∀ {as as' : List Agent} {w w' : World},
    (∀ a ∈ as, PlaceOK w₀ a.place) → ghost c w = ghost c w₀ → InUnit w.draws → each f as w = .ok (w', as') →
    ghost c w' = ghost c w₀ ∧ (∀ a ∈ as', PlaceOK w₀ a.place) ∧ List.Forall₂ (May c w₀ f) as as' ∧ InUnit w'.draws
  | [], as', w, w', _, hg, hd, h => by
    obtain ⟨rfl, rfl⟩ := Prod.mk.inj (Except.ok.inj h)
    exact ⟨hg, by simp, .nil, hd⟩
  | a :: as, as', w, w', hp, hg, hd, h => by
    simp only [each, Except.bind_eq_ok] at h
    obtain ⟨⟨w1, a1⟩, h1, ⟨w2, as2⟩, h2, h⟩ := h
    obtain ⟨rfl, rfl⟩ := Prod.mk.inj (Except.ok.inj h)
    obtain ⟨q, e1, us, d1, c1⟩ := (hf a (hp a (by simp))).spec hg h1
    rw [d1, feed_unit] at hd
    obtain ⟨g1, g2, g3, g4⟩ := each_may hf (fun b hb => hp b (by simp [hb])) e1 hd.2 h2
    refine ⟨g1, ?_, .cons ⟨us, hd.1, c1⟩ g3, g4⟩
    simp only [List.mem_cons, forall_eq_or_imp]
    exact ⟨q, g2⟩

theorem may_each {w₀ : World} {f : Agent → World → Except Err (World × Agent)} {as as' : List Agent}
    (h : List.Forall₂ (May c w₀ f) as as') : ∃ us, (∀ u ∈ us, 0 ≤ u ∧ u < 1) ∧ Can c w₀ (each f as) as' us := by
  induction h with
  | nil => exact ⟨[], by simp, fun v rest hv hd => ⟨v, rfl, hv, hd⟩⟩
  | @cons a a' as as' h1 _ ih =>
    obtain ⟨us, u1, h1⟩ := h1
    obtain ⟨vs, u2, h2⟩ := ih
    refine ⟨us ++ (vs ++ []), ?_, h1.bind (g := fun a' w => each f as w >>= fun s => .ok (s.1, a' :: s.2)) ?_⟩
    · simp only [List.append_nil, List.mem_append]
      exact fun u h => h.elim (u1 u) (u2 u)
    refine h2.bind (g := fun as' w => .ok (w, a' :: as')) ?_
    exact fun v rest hv hd => ⟨v, rfl, hv, hd⟩

/-! ### One day -/

/-- The world at the end of a day. -/
def tick (w : World) : World := { w with time := w.time + 1 }

/-- The agent can become another in a day, in a world with the scores of the day. -/
def MayDay (c : Cfg) (fuel : Nat) (w₁ : World) (a a' : Agent) : Prop :=
  ∃ a1 a2, May c w₁ (fun a w => evolveOne c w a) a a1 ∧ May c w₁ (fun a w => finishOne c fuel w a) a1 a2 ∧
    if c.campsAreSinks then May c w₁ (fun a w => .ok (sinkOne w a)) (updateRecent c a2) a' else a' = updateRecent c a2

/-- The worlds with the ghost of `w` get the scores of `w₁`. -/
def Scored (c : Cfg) (w w₁ : World) : Prop :=
  (∃ sw, refreshSpawnWeights c w = .ok sw) ∧ ∃ n, ∀ v, ghost c v = ghost c w →
    ∃ v', updateScores c v = .ok v' ∧ ghost c v' = ghost c w₁ ∧ ∀ k, v'.draws k = v.draws (k + n)

theorem Can.ghost {α : Type} {w₀ w₁ : World} {f : World → Except Err (World × α)} {x : α} {us : List ℚ} (h : Can c w₀ f x us)
    (e : ghost c w₀ = ghost c w₁) : Can c w₁ f x us := by
  unfold Can at h ⊢
  rw [← e]
  exact h

theorem May.ghost {w₀ w₁ : World} {f : Agent → World → Except Err (World × Agent)} {a a' : Agent} (h : May c w₀ f a a')
    (e : ghost c w₀ = ghost c w₁) : May c w₁ f a a' := by
  obtain ⟨us, u, h⟩ := h
  exact ⟨us, u, h.ghost e⟩

theorem MayDay.ghost {fuel : Nat} {w₀ w₁ : World} {a a' : Agent} (h : MayDay c fuel w₀ a a') (e : ghost c w₀ = ghost c w₁) :
    MayDay c fuel w₁ a a' := by
  obtain ⟨a1, a2, h1, h2, h3⟩ := h
  refine ⟨a1, a2, h1.ghost e, h2.ghost e, ?_⟩
  split
  · rename_i hs; rw [if_pos hs] at h3; exact h3.ghost e
  · rename_i hs; rw [if_neg hs] at h3; exact h3

theorem Scored.unique {w w₁ w₂ : World} (h : Scored c w w₁) (g : Scored c w w₂) : ghost c w₁ = ghost c w₂ := by
  obtain ⟨-, n, h⟩ := h
  obtain ⟨-, m, g⟩ := g
  obtain ⟨v, h1, h2, -⟩ := h w rfl
  obtain ⟨u, g1, g2, -⟩ := g w rfl
  cases Except.ok.inj (h1.symm.trans g1)
  exact h2.symm.trans g2

theorem Scored.ghost {w w₁ v : World} (h : Scored c w w₁) (e : ghost c w = ghost c v) : Scored c v w₁ := by
  obtain ⟨h1, n, h⟩ := h
  exact ⟨refreshSpawnWeights_ghost e.symm h1, n, fun u hu => h u (hu.trans e.symm)⟩

theorem forall₂_map {α β : Type} {R : α → β → Prop} (f : β → β) : ∀ {as : List α} {bs : List β}, List.Forall₂ R as bs →
    List.Forall₂ (fun a b => ∃ b', R a b' ∧ b = f b') as (bs.map f)
  | [], _, h => by cases h; exact .nil
  | a :: as, _, h => by
    cases h with
    | cons h1 h2 => exact .cons ⟨_, h1, rfl⟩ (forall₂_map f h2)

theorem forall₂_eq_map {α β : Type} {f : α → β} {as : List α} {bs : List β} (h : List.Forall₂ (fun a b => b = f a) as bs) :
    bs = as.map f := by
  induction h with
  | nil => rfl
  | cons k _ ih => rw [k, ih, List.map_cons]

theorem forall₂_comp {α β γ : Type} {R : α → β → Prop} {S : β → γ → Prop} : ∀ {as : List α} {bs : List β} {cs : List γ},
    List.Forall₂ R as bs → List.Forall₂ S bs cs → List.Forall₂ (fun a c => ∃ b, R a b ∧ S b c) as cs
  | [], _, _, h, g => by cases h; cases g; exact .nil
  | a :: as, _, _, h, g => by
    cases h with
    | cons h1 h2 => cases g with
      | cons g1 g2 => exact .cons ⟨_, h1, g1⟩ (forall₂_comp h2 g2)

theorem forall₂_split {α β γ : Type} {R : α → β → Prop} {S : β → γ → Prop} : ∀ {as : List α} {cs : List γ},
    List.Forall₂ (fun a c => ∃ b, R a b ∧ S b c) as cs → ∃ bs, List.Forall₂ R as bs ∧ List.Forall₂ S bs cs
  | [], _, h => by cases h; exact ⟨[], .nil, .nil⟩
  | a :: as, _, h => by
    cases h with
    | cons h1 h2 =>
      obtain ⟨b, r, s⟩ := h1
      obtain ⟨bs, rs, ss⟩ := forall₂_split h2
      exact ⟨b :: bs, .cons r rs, .cons s ss⟩

/-- Agents whose places exist, in a world in which they cannot notice each other. -/
structure FitAll (c : Cfg) (w : World) (as : List Agent) : Prop where
  fit : Fit c w
  places : ∀ a ∈ as, PlaceOK w a.place

theorem Fit.scores {w w' : World} (h : Fit c w) (g : updateScores c w = .ok w') : Fit c w' := by
  have hr := updateScores_rescored g
  refine ⟨⟨fun i hi l hl => ?_, fun l hl => ?_⟩, fun i hi => ?_⟩
  · have : (w'.loc i).links = (w.loc i).links := (congrArg Loc.links (hr.loc i) :)
    rw [hr.nLink]; exact h.closed.mem i (hr.nLoc ▸ hi) l (this ▸ hl)
  · rw [hr.link, hr.nLoc]; exact h.closed.ends l (hr.nLink ▸ hl)
  · have : (w'.loc i).capacity = (w.loc i).capacity := (congrArg Loc.capacity (hr.loc i) :)
    rw [this]; exact h.uncapped i (hr.nLoc ▸ hi)

theorem Fit.tick {w : World} (h : Fit c w) : Fit c (tick w) := ⟨⟨h.closed.mem, h.closed.ends⟩, h.uncapped⟩

theorem placeOK_of {w v : World} (h1 : v.nLoc = w.nLoc) (h2 : v.nLink = w.nLink) {p : Place} (h : PlaceOK w p) : PlaceOK v p := by
  cases p <;> simpa only [PlaceOK, h1, h2] using h

theorem evolve_mayDay {fuel : Nat} {e e' : Eco} (hf : FitAll c e.w e.agents) (hd : InUnit e.w.draws)
    (h : e.evolve c fuel = .ok e') : ∃ w₁, Scored c e.w w₁ ∧ List.Forall₂ (MayDay c fuel w₁) e.agents e'.agents ∧ ghost c e'.w = ghost c (tick w₁) ∧
      FitAll c e'.w e'.agents ∧ InUnit e'.w.draws := by
  simp only [Eco.evolve, Except.bind_eq_ok, Except.pure_eq_ok] at h
  obtain ⟨sw, h0, w1, h1, ⟨w2, as2⟩, h2, ⟨w3, as3⟩, h3, rfl⟩ := h
  have hs := updateScores_rescored h1
  have f1 := hf.fit.scores h1
  rw [evolveAll_each] at h2
  rw [finishAll_each] at h3
  obtain ⟨n, hn⟩ := updateScores_ghost h1
  have d1 : InUnit w1.draws := by
    obtain ⟨v, k1, -, k3⟩ := hn e.w rfl
    cases Except.ok.inj (k1.symm.trans h1)
    exact fun k => (k3 k).symm ▸ hd _
  obtain ⟨g2, p2, m2, d2⟩ := each_may (fun a ha => lone_evolveOne f1 ha)
    (fun a ha => placeOK_of hs.nLoc hs.nLink (hf.places a ha)) rfl d1 h2
  obtain ⟨g3, p3, m3, d3⟩ := each_may (fun a ha => lone_finishOne f1 ha) p2 g2 d2 h3
  have p3' : ∀ a ∈ as3.map (updateRecent c), PlaceOK w1 a.place := by
    simp only [List.mem_map, forall_exists_index, and_imp, forall_apply_eq_imp_iff₂]
    exact p3
  refine ⟨w1, ⟨⟨sw, h0⟩, n, hn⟩, ?_⟩
  by_cases hk : c.campsAreSinks = true
  · simp only [hk, if_true]
    have e4 := sinkAll_each (as3.map (updateRecent c)) w3
    obtain ⟨g4, p4, m4, d4⟩ := each_may (fun a ha => lone_sinkOne ha) p3' g3 d3 e4.symm
    refine ⟨?_, congrArg tick g4, ⟨(f1.ghost g4).tick, fun a ha => ?_⟩, d4⟩
    · refine (forall₂_comp m2 (forall₂_comp (forall₂_map (updateRecent c) m3) m4)).imp fun a a' h => ?_
      obtain ⟨a1, k1, a3, ⟨a2, k2, rfl⟩, k3⟩ := h
      exact ⟨a1, a2, k1, k2, by rw [if_pos hk]; exact k3⟩
    · exact placeOK_of (ghost_nLoc g4) (ghost_nLink g4) (p4 a ha)
  · simp only [if_neg hk]
    refine ⟨?_, congrArg tick g3, ⟨(f1.ghost g3).tick, fun a ha => ?_⟩, d3⟩
    · refine (forall₂_comp m2 (forall₂_map (updateRecent c) m3)).imp fun a a' h => ?_
      obtain ⟨a1, k1, a2, k2, rfl⟩ := h
      exact ⟨a1, a2, k1, k2, by rw [if_neg hk]⟩
    · exact placeOK_of (ghost_nLoc g3) (ghost_nLink g3) (p3' a ha)

theorem mayDay_evolve {fuel : Nat} {w w₁ : World} {as as' : List Agent} (hs : Scored c w w₁)
    (h : List.Forall₂ (MayDay c fuel w₁) as as') : ∃ us, (∀ u ∈ us, 0 ≤ u ∧ u < 1) ∧ ∀ (e : Eco) rest, ghost c e.w = ghost c w → e.agents = as →
      e.w.draws = feed us rest → ∃ e', e.evolve c fuel = .ok e' ∧ e'.agents = as' ∧ ghost c e'.w = ghost c (tick w₁) ∧
        e'.w.draws = rest := by
  obtain ⟨h0, n, hn⟩ := hs
  have h : List.Forall₂ (fun a a' => ∃ a1, May c w₁ (fun a w => evolveOne c w a) a a1 ∧ ∃ a2, May c w₁ (fun a w => finishOne c fuel w a) a1 a2 ∧
      if c.campsAreSinks then May c w₁ (fun a w => .ok (sinkOne w a)) (updateRecent c a2) a' else a' = updateRecent c a2) as as' :=
    h.imp fun a a' ⟨a1, a2, k1, k2, k3⟩ => ⟨a1, k1, a2, k2, k3⟩
  obtain ⟨as1, m1, h⟩ := forall₂_split h
  obtain ⟨as2, m2, m3⟩ := forall₂_split (R := May c w₁ (fun a w => finishOne c fuel w a))
    (S := fun a2 a' => if c.campsAreSinks then May c w₁ (fun a w => .ok (sinkOne w a)) (updateRecent c a2) a' else a' = updateRecent c a2)
    h
  obtain ⟨us1, u1, c1⟩ := may_each m1
  obtain ⟨us2, u2, c2⟩ := may_each m2
  have u0 : ∀ u ∈ List.replicate n (0 : ℚ), 0 ≤ u ∧ u < 1 := by
    intro u hu
    rw [List.eq_of_mem_replicate hu]
    norm_num
  by_cases hk : c.campsAreSinks = true
  · simp only [hk, if_true] at m3
    have m3' : List.Forall₂ (May c w₁ (fun a w => .ok (sinkOne w a))) (as2.map (updateRecent c)) as' := by
      rwa [List.forall₂_map_left_iff]
    obtain ⟨us3, u3, c3⟩ := may_each m3'
    refine ⟨List.replicate n 0 ++ (us1 ++ (us2 ++ us3)), by simp only [List.forall_mem_append]; exact ⟨u0, u1, u2, u3⟩, fun e rest hg ha hd => ?_⟩
    obtain ⟨v, k1, k2, k3⟩ := hn e.w hg
    have kd : v.draws = feed us1 (feed us2 (feed us3 rest)) := by
      funext k
      rw [k3, hd, feed_append, feed_shift, feed_append, feed_append]
    obtain ⟨v1, l1, l2, l3⟩ := c1 v _ k2 kd
    obtain ⟨v2, n1, n2, n3⟩ := c2 v1 _ l2 l3
    obtain ⟨v3, o1, o2, o3⟩ := c3 v2 _ n2 n3
    rw [← sinkAll_each] at o1
    obtain ⟨sw, hsw⟩ := refreshSpawnWeights_ghost hg h0
    refine ⟨{ e with w := tick v3, agents := as', spawnWeights := sw }, ?_, rfl, congrArg tick o2, o3⟩
    unfold Eco.evolve
    rw [hsw, k1]
    show (evolveAll c v e.agents >>= _) = _
    rw [ha, evolveAll_each, l1]
    show (finishAll c fuel v1 as1 >>= _) = _
    rw [finishAll_each, n1]
    simp only [hk, if_true, bind, Except.bind, pure, Except.pure, Except.ok.inj o1]
    rfl
  · simp only [if_neg hk] at m3
    have m3' : as' = as2.map (updateRecent c) := forall₂_eq_map m3
    refine ⟨List.replicate n 0 ++ (us1 ++ us2), by simp only [List.forall_mem_append]; exact ⟨u0, u1, u2⟩, fun e rest hg ha hd => ?_⟩
    obtain ⟨v, k1, k2, k3⟩ := hn e.w hg
    have kd : v.draws = feed us1 (feed us2 rest) := by
      funext k
      rw [k3, hd, feed_append, feed_shift, feed_append]
    obtain ⟨v1, l1, l2, l3⟩ := c1 v _ k2 kd
    obtain ⟨v2, n1, n2, n3⟩ := c2 v1 _ l2 l3
    obtain ⟨sw, hsw⟩ := refreshSpawnWeights_ghost hg h0
    refine ⟨{ e with w := tick v2, agents := as', spawnWeights := sw }, ?_, rfl, congrArg tick n2, n3⟩
    unfold Eco.evolve
    rw [hsw, k1]
    show (evolveAll c v e.agents >>= _) = _
    rw [ha, evolveAll_each, l1]
    show (finishAll c fuel v1 as1 >>= _) = _
    rw [finishAll_each, n1]
    simp only [if_neg hk, bind, Except.bind, pure, Except.pure, m3']
    rfl

/-! ### Many days -/

/-- The agents can become others in `n` days that start with the ghost of `w`. -/
def MayDays (c : Cfg) (fuel : Nat) : Nat → World → List Agent → List Agent → Prop
  | 0, _, as, as' => as' = as
  | n + 1, w, as, as' => ∃ w₁ as₁, Scored c w w₁ ∧ List.Forall₂ (MayDay c fuel w₁) as as₁ ∧ MayDays c fuel n (tick w₁) as₁ as'

theorem MayDays.ghost {fuel : Nat} : ∀ {n : Nat} {w v : World} {as as' : List Agent}, MayDays c fuel n w as as' →
    ghost c w = ghost c v → MayDays c fuel n v as as'
  | 0, _, _, _, _, h, _ => h
  | _ + 1, _, _, _, _, ⟨w₁, as₁, h1, h2, h3⟩, e => ⟨w₁, as₁, h1.ghost e, h2, h3⟩

theorem days_mayDays {fuel : Nat} : ∀ {n : Nat} {e e' : Eco}, FitAll c e.w e.agents → InUnit e.w.draws → days c fuel n e = .ok e' →
    MayDays c fuel n e.w e.agents e'.agents
  | 0, _, _, _, _, h => by cases Except.ok.inj h; rfl
  | n + 1, e, e', hf, hd, h => by
    obtain ⟨e1, h1, h2⟩ := Except.bind_eq_ok.1 (show (e.evolve c fuel >>= days c fuel n) = .ok e' from h)
    obtain ⟨w₁, hs, hm, hg, hf', hd'⟩ := evolve_mayDay hf hd h1
    exact ⟨w₁, e1.agents, hs, hm, (days_mayDays hf' hd' h2).ghost hg⟩

theorem mayDays_days {fuel : Nat} : ∀ {n : Nat} {w : World} {as as' : List Agent}, MayDays c fuel n w as as' →
    ∃ us, (∀ u ∈ us, 0 ≤ u ∧ u < 1) ∧ ∀ (e : Eco) rest, ghost c e.w = ghost c w → e.agents = as → e.w.draws = feed us rest →
      ∃ e', days c fuel n e = .ok e' ∧ e'.agents = as'
  | 0, w, as, as', h => ⟨[], by simp, fun e _ _ ha _ => ⟨e, rfl, ha.trans (Eq.symm h)⟩⟩
  | n + 1, w, as, as', ⟨w₁, as₁, h1, h2, h3⟩ => by
    obtain ⟨us, u1, k1⟩ := mayDay_evolve h1 h2
    obtain ⟨vs, u2, k2⟩ := mayDays_days h3
    refine ⟨us ++ vs, by simp only [List.forall_mem_append]; exact ⟨u1, u2⟩, fun e rest hg ha hd => ?_⟩
    rw [feed_append] at hd
    obtain ⟨e1, l1, l2, l3, l4⟩ := k1 e _ hg ha hd
    obtain ⟨e2, m1, m2⟩ := k2 e1 rest l3 l2 l4
    refine ⟨e2, ?_, m2⟩
    show (e.evolve c fuel).bind (days c fuel n) = _
    rw [l1]
    exact m1

/-- Together or each on its own. -/
theorem mayDays_iff {fuel : Nat} : ∀ {n : Nat} {w : World} {as as' : List Agent}, as ≠ [] →
    (MayDays c fuel n w as as' ↔ List.Forall₂ (fun a a' => MayDays c fuel n w [a] [a']) as as')
  | 0, w, as, as', _ => by
    constructor
    · intro h
      cases (show as' = as from h)
      exact List.forall₂_same.2 fun a _ => rfl
    · intro h
      show as' = as
      induction h with
      | nil => rfl
      | @cons a a' as as' h h2 ih =>
        have : [a'] = [a] := h
        cases this
        cases as with
        | nil => cases h2; rfl
        | cons b bs => rw [ih (by simp)]
  | n + 1, w, as, as', hne => by
    constructor
    · rintro ⟨w₁, as₁, hs, h2, h3⟩
      have hne1 : as₁ ≠ [] := by
        rintro rfl
        cases h2
        exact hne rfl
      refine (forall₂_comp h2 ((mayDays_iff hne1).1 h3)).imp ?_
      rintro a a' ⟨a1, k1, k2⟩
      exact ⟨w₁, [a1], hs, .cons k1 .nil, k2⟩
    · intro h
      have key : ∃ w₁, Scored c w w₁ := by
        cases h with
        | nil => exact absurd rfl hne
        | cons h _ => obtain ⟨w₁, _, hs, _⟩ := h; exact ⟨w₁, hs⟩
      obtain ⟨w₁, hs⟩ := key
      have h' : List.Forall₂ (fun a a' => ∃ a1, MayDay c fuel w₁ a a1 ∧ MayDays c fuel n (tick w₁) [a1] [a']) as as' := by
        refine h.imp ?_
        rintro a a' ⟨w₂, as₁, hs2, k1, k2⟩
        have hg := hs2.unique hs
        cases k1 with
        | cons k1 k3 =>
          cases k3
          exact ⟨_, k1.ghost hg, k2.ghost (congrArg tick hg)⟩
      obtain ⟨as₁, k1, k2⟩ := forall₂_split h'
      have hne1 : as₁ ≠ [] := by
        rintro rfl
        cases k1
        exact hne rfl
      exact ⟨w₁, as₁, hs, k1, (mayDays_iff hne1).2 k2⟩

theorem canBecome_iff {fuel n : Nat} {e : Eco} {as as' : List Agent} (hf : FitAll c e.w as) :
    CanBecome c fuel n e as as' ↔ MayDays c fuel n e.w as as' := by
  constructor
  · rintro ⟨d, e', hd, h, rfl⟩
    exact (days_mayDays (e := { e with w := { e.w with draws := d }, agents := as }) ⟨hf.fit.ghost rfl, hf.places⟩ hd h).ghost rfl
  · intro h
    obtain ⟨us, u, k⟩ := mayDays_days h
    obtain ⟨e', h1, h2⟩ := k { e with w := { e.w with draws := feed us fun _ => 0 }, agents := as } (fun _ => 0) rfl rfl rfl
    exact ⟨_, e', feed_unit.2 ⟨u, fun _ => by norm_num⟩, h1, h2⟩

theorem canBecome_forall₂ {fuel n : Nat} {e : Eco} {as as' : List Agent} (hf : FitAll c e.w as) (hne : as ≠ []) :
    CanBecome c fuel n e as as' ↔ List.Forall₂ (fun a a' => CanBecome c fuel n e [a] [a']) as as' := by
  rw [canBecome_iff hf, mayDays_iff hne]
  have : ∀ a ∈ as, ∀ a', (MayDays c fuel n e.w [a] [a'] ↔ CanBecome c fuel n e [a] [a']) := fun a ha a' =>
    (canBecome_iff (e := e) (as := [a]) ⟨hf.fit, by simpa using hf.places a ha⟩).symm
  clear hne hf
  constructor
  · intro h
    induction h with
    | nil => exact .nil
    | cons h1 _ ih => exact .cons ((this _ (by simp) _).1 h1) (ih fun b hb => this b (by simp [hb]))
  · intro h
    induction h with
    | nil => exact .nil
    | cons h1 _ ih => exact .cons ((this _ (by simp) _).2 h1) (ih fun b hb => this b (by simp [hb]))

end Flee.Alone
