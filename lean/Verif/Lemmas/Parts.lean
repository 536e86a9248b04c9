import Verif.Lemmas.Alone
import Verif.Lemmas.Locality
import Verif.Lemmas.History
import Verif.Spec.Parts

/-!
Parts of a country that no links connect do not influence each other.
-/

namespace Flee.Parts

open Spec Alone

variable {c : Cfg} {S T : Nat → Bool}

/-! ### What one part is like -/

/-- A world without the numbers of agents in the places outside of a part, and without random numbers. -/
def part (S : Nat → Bool) (w : World) : World :=
  { w with loc := fun i => if S i then w.loc i else { w.loc i with numAgents := 0, numAgentsSpawned := 0 },
           link := fun l => if S (w.link l).start then w.link l else { w.link l with numAgents := 0, cumNumAgents := 0 },
           draws := fun _ => 0 }

theorem ghost_part (w : World) : ghost c (part S w) = ghost c w := by
  simp only [ghost, veil, part]
  congr 1
  · funext i
    by_cases h : S i = true
    · rw [if_pos h]
    · rw [if_neg h]; rfl
  · funext l
    by_cases h : S (w.link l).start = true
    · rw [if_pos h]
    · rw [if_neg h]

theorem ghost_of_part {v w : World} (h : part S v = part S w) : ghost c v = ghost c w := by
  rw [← ghost_part (S := S) v, h, ghost_part]

theorem part_loc {v w : World} (h : part S v = part S w) {i : Nat} (hi : S i = true) : v.loc i = w.loc i := by
  have e : (part S v).loc i = (part S w).loc i := by rw [h]
  simpa only [part, if_pos hi] using e

theorem part_draws {v w : World} (d : Nat → ℚ) (h : part S v = part S w) : part S { v with draws := d } = part S w := h

/-- What happens in a part is the same in all worlds where the part is the same. -/
theorem part_setLoc (w : World) {i : Nat} (hi : S i = true) (l : Loc) : part S (w.setLoc i l) = (part S w).setLoc i l := by
  simp only [part, World.setLoc]
  congr 1
  funext j
  by_cases h : j = i
  · subst h; simp [upd, hi]
  · simp [upd, h]

theorem part_setLoc_out (w : World) {i : Nat} (hi : S i = false) (n : Int) :
    part S (w.setLoc i { w.loc i with numAgents := n }) = part S w := by
  simp only [part, World.setLoc]
  congr 1
  funext j
  by_cases h : j = i
  · subst h; simp [upd, hi]
  · simp [upd, h]

theorem part_setLink (w : World) {l : Nat} (hl : S (w.link l).start = true) (k : Lnk) (hk : k.start = (w.link l).start) :
    part S (w.setLink l k) = (part S w).setLink l k := by
  simp only [part, World.setLink]
  congr 1
  funext j
  by_cases h : j = l
  · subst h; simp [upd, hk, hl]
  · simp [upd, h]

theorem part_setLink_out (w : World) {l : Nat} (hl : S (w.link l).start = false) (n : Int) (m : Nat) :
    part S (w.setLink l { w.link l with numAgents := n, cumNumAgents := m }) = part S w := by
  simp only [part, World.setLink]
  congr 1
  funext j
  by_cases h : j = l
  · subst h; simp [upd, hl]
  · simp [upd, h]

theorem part_decr (w : World) {p : Place} (hp : inPart S w p = true) : part S (w.decr p) = (part S w).decr p := by
  cases p with
  | loc i =>
    have hi : S i = true := hp
    have e : (part S w).loc i = w.loc i := if_pos hi
    simp only [World.decr, part_setLoc w hi, e]
  | link l =>
    have hl : S (w.link l).start = true := hp
    have e : (part S w).link l = w.link l := if_pos hl
    refine (part_setLink w hl { w.link l with numAgents := (w.link l).numAgents - 1 } rfl).trans ?_
    rw [World.decr, e]
  | gone i => rfl

theorem part_incr (w : World) {p : Place} (hp : inPart S w p = true) : part S (w.incr p) = (part S w).incr p := by
  cases p with
  | loc i =>
    have hi : S i = true := hp
    have e : (part S w).loc i = w.loc i := if_pos hi
    simp only [World.incr, part_setLoc w hi, e]
  | link l =>
    have hl : S (w.link l).start = true := hp
    have e : (part S w).link l = w.link l := if_pos hl
    refine (part_setLink w hl { w.link l with
      numAgents := (w.link l).numAgents + 1, cumNumAgents := (w.link l).cumNumAgents + 1 } rfl).trans ?_
    rw [World.incr, e]
  | gone i => rfl

theorem part_decr_out (w : World) {p : Place} (hp : inPart S w p = false) : part S (w.decr p) = part S w := by
  cases p with
  | loc i => exact part_setLoc_out w hp _
  | link l => exact part_setLink_out w hp _ (w.link l).cumNumAgents
  | gone i => rfl

theorem part_incr_out (w : World) {p : Place} (hp : inPart S w p = false) : part S (w.incr p) = part S w := by
  cases p with
  | loc i => exact part_setLoc_out w hp _
  | link l => exact part_setLink_out w hp _ _
  | gone i => rfl

theorem inPart_ghost {v w : World} (h : ghost c v = ghost c w) (p : Place) : inPart S v p = inPart S w p := by
  cases p with
  | loc i => rfl
  | link l =>
    have : (v.link l).start = (w.link l).start := (congrArg Lnk.start (ghost_link h l) :)
    rw [inPart, inPart, this]
  | gone i => rfl

/-! ### Computations that see and change one part only -/

/-- The computation sees nothing but the part `S` of the world and random numbers, changes nothing else, and its results satisfy `Q`. -/
def Local {α : Type} (c : Cfg) (S : Nat → Bool) (w₀ : World) (Q : α → Prop) (f : World → Except Err (World × α)) : Prop :=
  ∀ w w' x, ghost c w = ghost c w₀ → f w = .ok (w', x) → Q x ∧ ghost c w' = ghost c w₀ ∧
    (∀ T : Nat → Bool, (∀ i, T i = true → S i = false) → part T w' = part T w) ∧
    ∃ us, w.draws = feed us w'.draws ∧ ∀ v rest, part S v = part S w → v.draws = feed us rest →
      ∃ v', f v = .ok (v', x) ∧ part S v' = part S w' ∧ v'.draws = rest

section

variable {w₀ : World} {α β : Type} {Q : α → Prop} {R : β → Prop}

theorem Local.bind {f : World → Except Err (World × α)} {g : α → World → Except Err (World × β)}
    (hf : Local c S w₀ Q f) (hg : ∀ x, Q x → Local c S w₀ R (g x)) : Local c S w₀ R (fun w => f w >>= fun r => g r.2 r.1) := by
  intro w w' y hw h
  rw [Except.bind_eq_ok] at h
  obtain ⟨⟨w1, x⟩, h1, h2⟩ := h
  obtain ⟨q, e1, t1, us, d1, c1⟩ := hf w w1 x hw h1
  obtain ⟨r, e2, t2, vs, d2, c2⟩ := hg x q w1 w' y e1 h2
  refine ⟨r, e2, fun T hT => (t2 T hT).trans (t1 T hT), us ++ vs, by rw [feed_append, ← d2, ← d1], fun v rest hv hd => ?_⟩
  rw [feed_append] at hd
  obtain ⟨v1, k1, k2, k3⟩ := c1 v _ hv hd
  obtain ⟨v2, l1, l2, l3⟩ := c2 v1 rest k2 k3
  exact ⟨v2, by simp only [k1]; exact l1, l2, l3⟩

theorem Local.pure {x : α} (h : Q x) : Local c S w₀ Q (fun w => .ok (w, x)) := by
  intro w w' y hw e
  obtain ⟨rfl, rfl⟩ := Prod.mk.inj (Except.ok.inj e)
  exact ⟨h, hw, fun _ _ => rfl, [], rfl, fun v rest hv hd => ⟨v, rfl, hv, hd⟩⟩

theorem Local.error {x : Err} : Local c S w₀ Q (fun _ => .error x) := by
  intro w w' y _ e
  cases e

theorem Local.congr {f g : World → Except Err (World × α)} (h : Local c S w₀ Q f) (e : ∀ w, ghost c w = ghost c w₀ → g w = f w) :
    Local c S w₀ Q g := by
  intro w w' x hw hx
  rw [e w hw] at hx
  obtain ⟨q, e1, t1, us, d1, c1⟩ := h w w' x hw hx
  refine ⟨q, e1, t1, us, d1, fun v rest hv hd => ?_⟩
  rw [e v ((ghost_of_part hv).trans hw)]
  exact c1 v rest hv hd

/-- Reading something that is the same in all worlds where the part is the same. -/
theorem Local.read {g : World → Except Err α} {f : α → World → Except Err (World × β)}
    (hg : ∀ v w, ghost c w = ghost c w₀ → part S v = part S w → g v = g w)
    (hf : ∀ w x, ghost c w = ghost c w₀ → g w = .ok x → Local c S w₀ R (f x)) : Local c S w₀ R (fun w => g w >>= fun x => f x w) := by
  intro w w' y hw h
  obtain ⟨x, h1, h2⟩ := Except.bind_eq_ok.1 h
  obtain ⟨q, e1, t1, us, d1, c1⟩ := hf w x hw h1 w w' y hw h2
  refine ⟨q, e1, t1, us, d1, fun v rest hv hd => ?_⟩
  obtain ⟨v', k1, k2⟩ := c1 v rest hv hd
  exact ⟨v', by simp only [hg v w hw hv, h1]; exact k1, k2⟩

theorem Local.draw : Local c S w₀ (fun _ => True) (fun w => .ok (w.draw.2, w.draw.1)) := by
  intro w w' y hw e
  obtain ⟨rfl, rfl⟩ := Prod.mk.inj (Except.ok.inj e)
  refine ⟨trivial, hw, fun _ _ => rfl, [w.draws 0], feed_cons _, fun v rest hv hd => ⟨{ v with draws := rest }, ?_, hv, rfl⟩⟩
  have e1 : v.draws 0 = w.draws 0 := by rw [hd]; rfl
  have e2 : (fun n => v.draws (n + 1)) = rest := by rw [hd]; rfl
  simp only [World.draw, e1, e2]

theorem Local.travel {Q : Agent → Prop} {a : Agent} {p : Place} {t : Bool} (ha : inPart S w₀ a.place = true) (hp : inPart S w₀ p = true)
    (h : Q { a with place := p, travelling := t, dtol := 0 }) : Local c S w₀ Q (fun w => .ok (handleTravel w a p t)) := by
  intro w w' y hw e
  obtain ⟨rfl, rfl⟩ := Prod.mk.inj (Except.ok.inj e)
  have hg : ∀ v : World, ghost c ((v.decr a.place).incr p) = ghost c v := fun v => by rw [ghost_incr, ghost_decr]
  have hd : ∀ v : World, ((v.decr a.place).incr p).draws = v.draws := fun v => by rw [draws_incr, draws_decr]
  have hS : ∀ v : World, ghost c v = ghost c w₀ → part S ((v.decr a.place).incr p) = ((part S v).decr a.place).incr p := fun v hv => by
    rw [part_incr, part_decr]
    · rw [inPart_ghost hv]; exact ha
    · rw [inPart_ghost ((ghost_decr v _).trans hv)]; exact hp
  have hT : ∀ T : Nat → Bool, (∀ i, T i = true → S i = false) → ∀ q, inPart S w₀ q = true → inPart T w₀ q = false := by
    intro T hT q hq
    cases q with
    | loc i => exact Bool.eq_false_iff.2 fun h => by simp [hT i h, inPart] at hq
    | link l => exact Bool.eq_false_iff.2 fun h => by simp [hT _ h, inPart] at hq
    | gone i => exact Bool.eq_false_iff.2 fun h => by simp [hT i h, inPart] at hq
  refine ⟨h, (hg w).trans hw, fun T h => ?_, [], (hd w).symm, fun v rest hv hr => ⟨(v.decr a.place).incr p, rfl, ?_, (hd v).trans hr⟩⟩
  · rw [part_incr_out, part_decr_out]
    · rw [inPart_ghost hw]; exact hT T h _ ha
    · rw [inPart_ghost ((ghost_decr w _).trans hw)]; exact hT T h _ hp
  · rw [hS v ((ghost_of_part hv).trans hw), hS w hw, hv]

end

/-! ### What agents read -/

/-- A country of parts that no links connect. -/
structure Site (c : Cfg) (S : Nat → Bool) (w : World) : Prop where
  free : c.fixedRoutes = false
  closed : Closed w
  wf : WellFormed w
  start : ∀ i < w.nLoc, ∀ l ∈ (w.loc i).links, (w.link l).start = i
  un : Unconnected S w

/-- All names are names of locations of the part. -/
def Within (S : Nat → Bool) (w : World) (rs : List Way) : Prop := ∀ s, Way.name s ∈ rs → ∃ i < w.nLoc, (w.loc i).name.val = s ∧ S i = true

theorem Site.ghost {v w : World} (h : Site c S w) (e : ghost c v = ghost c w) : Site c S v := by
  have h1 := ghost_nLoc e
  have h2 := ghost_nLink e
  have hl : ∀ i, (v.loc i).links = (w.loc i).links := fun i => (congrArg Loc.links (ghost_loc e i) :)
  have hn : ∀ i, (v.loc i).name = (w.loc i).name := fun i => (congrArg Loc.name (ghost_loc e i) :)
  have h3 : ∀ l, (v.link l).start = (w.link l).start := fun l => (congrArg Lnk.start (ghost_link e l) :)
  have h4 : ∀ l, (v.link l).endp = (w.link l).endp := fun l => (congrArg Lnk.endp (ghost_link e l) :)
  refine ⟨h.free, ⟨?_, ?_⟩, ⟨?_, ?_, ?_⟩, ?_, ⟨?_, ?_⟩⟩ <;> simp only [h1, h2, hl, hn, h3, h4]
  · exact h.closed.mem
  · exact h.closed.ends
  · exact h.wf.links
  · exact h.wf.ends
  · exact h.wf.nodup
  · exact h.start
  · exact h.un.links
  · exact h.un.names

/-- Walks do not leave the part. -/
theorem Site.walk {w : World} (h : Site c S w) : ∀ {ls : List Nat} {i : Nat}, i < w.nLoc → S i = true → Walk w i ls →
    ∀ j ∈ stops w ls, j < w.nLoc ∧ S j = true
  | [], _, _, _, _ => by simp [stops]
  | l :: ls, i, hi, hS, ⟨h1, h2⟩ => by
    have hl := h.closed.mem i hi l h1
    have he := (h.closed.ends l hl).2
    have hs : S (w.link l).endp = true := by rw [← h.un.links l hl, h.start i hi l h1]; exact hS
    have := h.walk he hs h2
    simp only [stops, List.map_cons, List.mem_cons, forall_eq_or_imp]
    exact ⟨⟨he, hs⟩, this⟩

theorem coords_ghost {v w : World} (h : ghost c v = ghost c w) (p : Place) : v.coords p = w.coords p := by
  have hy : ∀ i, (v.loc i).y = (w.loc i).y := fun i => (congrArg Loc.y (ghost_loc h i) :)
  have hx : ∀ i, (v.loc i).x = (w.loc i).x := fun i => (congrArg Loc.x (ghost_loc h i) :)
  have h3 : ∀ l, (v.link l).start = (w.link l).start := fun l => (congrArg Lnk.start (ghost_link h l) :)
  have h4 : ∀ l, (v.link l).endp = (w.link l).endp := fun l => (congrArg Lnk.endp (ghost_link h l) :)
  cases p <;> simp only [World.coords, hy, hx, h3, h4]

theorem routeCandidates_part {v w : World} (hw : Site c S w) (h : part S v = part S w) {a : Agent} {i : Nat} (hi : i < w.nLoc)
    (hS : S i = true) : routeCandidates c v a i = routeCandidates c w a i := by
  have hg : ghost c v = ghost c w := ghost_of_part h
  have hv := hw.ghost hg
  have h3 : ∀ l, (v.link l).endp = (w.link l).endp := fun l => (congrArg Lnk.endp (ghost_link hg l) :)
  have h4 : ∀ l, (v.link l).dist = (w.link l).dist := fun l => (congrArg Lnk.dist (ghost_link hg l) :)
  have hl : Looks c v w (fun l _ => l < w.nLink ∧ S (w.link l).endp = true) := by
    refine ⟨fun l _ _ => h3 l, fun l _ _ => h4 l, fun l _ ⟨_, k⟩ => by rw [part_loc h k], fun l _ ⟨_, k⟩ _ => by rw [part_loc h k],
      fun l _ ⟨k1, k⟩ _ m hm => ?_⟩
    have he := (hw.closed.ends l k1).2
    have hm' := hw.closed.mem _ he m hm
    exact ⟨hm', by rw [← hw.un.links m hm', hw.start _ he m hm]; exact k⟩
  have := allRoutes_looks hl (a := a) (i := i) (ghost_time hg) (coords_ghost hg _) hv.wf hw.wf (ghost_nLoc hg ▸ hi) hi
    (by rw [part_loc h hS]) (by rw [part_loc h hS]) (fun l k => by
      have hm' := hw.closed.mem i hi l k
      exact ⟨hm', by rw [← hw.un.links l hm', hw.start i hi l k]; exact hS⟩)
  simp only [routeCandidates, hw.free, Bool.false_eq_true, if_false, this]

theorem routeCandidates_within {w : World} (hw : Site c S w) {a : Agent} {i : Nat} (hi : i < w.nLoc) (hS : S i = true)
    {ws : List ℚ} {rs : List (List String)} (h : routeCandidates c w a i = .ok (ws, rs)) : ∀ r ∈ rs, Within S w (r.map Way.name) := by
  simp only [routeCandidates, hw.free, Bool.false_eq_true, if_false] at h
  cases hc : allRoutes c w (c.endPointScore w a) i with
  | error e => rw [hc] at h; cases h
  | ok x =>
    obtain ⟨ws', rs'⟩ := x
    rw [hc] at h
    have hsub := pruneRoutes_sublist h
    intro r hr
    obtain ⟨r', hr', rfl⟩ := List.mem_map.1 (hsub.subset hr)
    obtain ⟨X, hX⟩ := allRoutes_found hw.wf hi hc
    have hrs : rs' = X.map (fun t => [(w.loc i).name.val] ++ names w (stops w t)) := hX.routes
    rw [hrs, List.mem_map] at hr'
    obtain ⟨t, ht, rfl⟩ := hr'
    obtain ⟨l, hl, u, rfl, hF⟩ := (hX.mem t).1 ht
    obtain ⟨h1, -⟩ := hF.walk
    have hs := hw.walk hi hS (show Walk w i (l :: u) from ⟨hl, h1⟩)
    intro x hx
    simp only [List.singleton_append, List.tail_cons, List.mem_map, names, Way.name.injEq, exists_eq_right] at hx
    obtain ⟨k, hk, rfl⟩ := hx
    obtain ⟨k1, k2⟩ := hs k hk
    exact ⟨k, k1, rfl, k2⟩

theorem takeNextStep_part {v w : World} (hw : Site c S w) (h : part S v = part S w) {r : Option (List Way)} {i : Nat}
    (hr : ∀ rt, r = some rt → Within S w rt) : takeNextStep c v r i = takeNextStep c w r i := by
  have hg : ghost c v = ghost c w := ghost_of_part h
  have hl : (v.loc i).links = (w.loc i).links := (congrArg Loc.links (ghost_loc hg i) :)
  have hn : ∀ i, (v.loc i).name = (w.loc i).name := fun i => (congrArg Loc.name (ghost_loc hg i) :)
  have h4 : ∀ l, (v.link l).endp = (w.link l).endp := fun l => (congrArg Lnk.endp (ghost_link hg l) :)
  have hd : ∀ d, (∀ i < w.nLoc, d = Way.name (w.loc i).name.val → S i = true) → destIsFullCamp c v d = destIsFullCamp c w d := by
    intro d k
    unfold destIsFullCamp
    rw [ghost_nLoc hg]
    simp only [hn]
    cases e : (List.range w.nLoc).find? (fun i => decide (Way.name (w.loc i).name.val = d)) with
    | none => rfl
    | some j =>
      have hj : j < w.nLoc := List.mem_range.mp (List.mem_of_find?_eq_some e)
      have he := List.find?_some e
      simp only [decide_eq_true_eq] at he
      dsimp only
      rw [part_loc h (k j hj he.symm)]
  unfold takeNextStep
  rw [hl]
  cases (w.loc i).links with
  | nil => rfl
  | cons k ks =>
    cases r with
    | none => rfl
    | some r =>
      cases r with
      | nil => rfl
      | cons r rs =>
        dsimp only
        have e : (k :: ks).find? (fun l => decide (Way.name (v.epName l).val = r)) =
          (k :: ks).find? (fun l => decide (Way.name (w.epName l).val = r)) := by
          have : v.epName = w.epName := funext fun l => by rw [World.epName, World.epName, h4, hn]
          rw [this]
        rw [e, hd]
        intro j hj k
        obtain ⟨m, m1, m2, m3⟩ := hr _ rfl _ (k ▸ List.getLast_mem (List.cons_ne_nil r rs))
        rw [← hw.un.names m m1 j hj m2]
        exact m3

/-! ### One agent -/

/-- The agent is in the part and has no plans to go elsewhere. -/
def Good (S : Nat → Bool) (w : World) (a : Agent) : Prop := PlaceOK w a.place ∧ inPart S w a.place = true ∧ Within S w a.route

theorem Within.ghost {v w : World} {rs : List Way} (h : Within S w rs) (e : ghost c v = ghost c w) : Within S v rs := by
  have hn : ∀ i, (v.loc i).name = (w.loc i).name := fun i => (congrArg Loc.name (ghost_loc e i) :)
  intro s hs
  obtain ⟨i, h1, h2, h3⟩ := h s hs
  exact ⟨i, ghost_nLoc e ▸ h1, by rw [hn]; exact h2, h3⟩

theorem takeNextStep_rest {w : World} {r : Option (List Way)} {i : Nat} {d : Option Nat} {rt : List Way}
    (h : takeNextStep c w r i = .ok (d, rt)) : rt = [] ∨ ∃ x, r = some (x :: rt) := by
  unfold takeNextStep at h
  split at h
  · obtain ⟨-, rfl⟩ := Prod.mk.inj (Except.ok.inj h); exact .inl rfl
  · split at h
    · cases h
    · cases h
    · split at h
      · obtain ⟨-, rfl⟩ := Prod.mk.inj (Except.ok.inj h); exact .inl rfl
      · rw [Except.bind_eq_ok] at h
        obtain ⟨b, -, h⟩ := h
        cases b with
        | true => obtain ⟨-, rfl⟩ := Prod.mk.inj (Except.ok.inj h); exact .inl rfl
        | false => obtain ⟨-, rfl⟩ := Prod.mk.inj (Except.ok.inj h); exact .inr ⟨_, rfl⟩

section

variable {w₀ : World} (hw : Site c S w₀)

include hw

theorem local_selectRoute {a : Agent} {i : Nat} (hi : i < w₀.nLoc) (hS : S i = true) :
    Local c S w₀ (fun r => ∀ rt, r = some rt → Within S w₀ rt) (fun w => (selectRoute c w a i).map Prod.swap) := by
  unfold selectRoute
  by_cases ha : c.awareness = 0
  · by_cases hn : (w₀.loc i).links.length = 0
    · refine Local.congr (f := fun _ => .error .valueError) .error fun w hg => ?_
      have e : (w.loc i).links = (w₀.loc i).links := (congrArg Loc.links (ghost_loc hg i) :)
      simp only [if_pos ha, e, if_pos hn]; rfl
    · refine Local.congr (Local.bind .draw (g := fun u w => .ok (w, some [Way.idx (((u : ℚ) * ((w₀.loc i).links.length : ℚ)).floor.toNat %
        (w₀.loc i).links.length)])) fun x _ => .pure ?_) fun w hg => ?_
      · rintro rt h s hs
        cases Option.some.inj h
        cases List.mem_singleton.1 hs
      · have e : (w.loc i).links = (w₀.loc i).links := (congrArg Loc.links (ghost_loc hg i) :)
        simp only [if_pos ha, e, if_neg hn]; rfl
  · refine Local.congr (Local.read (g := fun w => routeCandidates c w a i) (f := fun x w =>
      if x.1.length = 0 then .ok (w, none) else
        match chooseFromWeights x.1 x.2 w.draw.1 with
        | .error e => .error e
        | .ok none => .ok (w.draw.2, none)
        | .ok (some route) => if route.length = 0 then .error .exit else .ok (w.draw.2, some (route.map Way.name)))
      (fun v w hg hp => routeCandidates_part (hw.ghost hg) hp (ghost_nLoc hg ▸ hi) hS) fun w x hg hx => ?_) fun w hg => ?_
    · obtain ⟨ws, rs⟩ := x
      have hin := routeCandidates_within (hw.ghost hg) (ghost_nLoc hg ▸ hi) hS hx
      by_cases hl : ws.length = 0
      · simp only [if_pos hl]; exact .pure fun _ h => by cases h
      · simp only [if_neg hl]
        refine Local.congr (Local.bind .draw (g := fun u w => match chooseFromWeights ws rs u with
          | .error e => .error e
          | .ok none => .ok (w, none)
          | .ok (some route) => if route.length = 0 then .error .exit else .ok (w, some (route.map Way.name)))
          fun u _ => ?_) fun w hg => rfl
        cases hc : chooseFromWeights ws rs u with
        | error e => exact .error
        | ok r =>
          cases r with
          | none => exact .pure fun _ h => by cases h
          | some route =>
            dsimp only
            by_cases h : route.length = 0
            · simp only [if_pos h]; exact .error
            · simp only [if_neg h]
              refine .pure fun rt h => ?_
              cases Option.some.inj h
              exact (hin route (chooseFromWeights_mem hc)).ghost hg.symm
    · simp only [if_neg ha]
      cases routeCandidates c w a i with
      | error e => rfl
      | ok x =>
        obtain ⟨ws, rs⟩ := x
        show Except.map _ (if ws.length = 0 then _ else _) = if ws.length = 0 then _ else _
        split
        · rfl
        · dsimp only
          cases chooseFromWeights ws rs w.draw.1 with
          | error e => rfl
          | ok r =>
            cases r with
            | none => rfl
            | some route =>
              dsimp only
              split <;> rfl

theorem local_planRoute {a : Agent} {i : Nat} (hi : i < w₀.nLoc) (hS : S i = true) (hr : Within S w₀ a.route) :
    Local c S w₀ (fun r => ∀ rt, r = some rt → Within S w₀ rt) (fun w => (planRoute c w a i).map Prod.swap) := by
  unfold planRoute
  by_cases h : a.route.length = 0
  · simp only [if_pos h]; exact local_selectRoute hw hi hS
  · simp only [if_neg h]
    refine .pure fun rt h => ?_
    cases Option.some.inj h
    exact hr

theorem local_tryDepart {a : Agent} {i : Nat} (hi : i < w₀.nLoc) (hS : S i = true) (hp : Good S w₀ a) :
    Local c S w₀ (Good S w₀) (fun w => tryDepart c w a i) := by
  refine Local.congr (Local.bind (local_planRoute hw (a := a) hi hS hp.2.2) (g := fun r w =>
    takeNextStep c w r i >>= fun x => match x.1 with
      | none => .ok (w, { a with route := x.2 })
      | some l => .ok (handleTravel w { a with route := x.2 } (.link l) true)) fun r hr => ?_) fun w hg => ?_
  · refine Local.read (g := fun w => takeNextStep c w r i) (f := fun x w => match x.1 with
      | none => .ok (w, { a with route := x.2 })
      | some l => .ok (handleTravel w { a with route := x.2 } (.link l) true))
      (fun v w hg hp => takeNextStep_part (hw.ghost hg) hp fun rt h => (hr rt h).ghost hg) fun w x hg hx => ?_
    obtain ⟨d, rt⟩ := x
    have hrt : Within S w₀ rt := by
      rcases takeNextStep_rest hx with rfl | ⟨y, rfl⟩
      · exact fun _ h => by cases h
      · exact fun r h => hr _ rfl r (List.mem_cons_of_mem _ h)
    cases d with
    | none => exact Local.pure ⟨hp.1, hp.2.1, hrt⟩
    | some l =>
      have hl := Alone.takeNextStep_mem hx
      have e : (w.loc i).links = (w₀.loc i).links := (congrArg Loc.links (ghost_loc hg i) :)
      rw [e] at hl
      have hin : inPart S w₀ (.link l) = true := by
        show S (w₀.link l).start = true
        rw [hw.start i hi l hl]; exact hS
      exact Local.travel hp.2.1 hin ⟨hw.closed.mem i hi l hl, hin, hrt⟩
  · unfold tryDepart
    cases h : planRoute c w a i with
    | error e => rfl
    | ok x =>
      obtain ⟨r, w1⟩ := x
      show (takeNextStep c w1 r i >>= _) = (takeNextStep c w1 r i >>= _)
      cases takeNextStep c w1 r i with
      | error e => rfl
      | ok x =>
        obtain ⟨l, rt⟩ := x
        cases l <;> rfl

theorem local_personEvolve {a : Agent} {f : Bool} (hp : Good S w₀ a) :
    Local c S w₀ (Good S w₀) (fun w => personEvolve c w a f) := by
  unfold personEvolve
  by_cases ht : a.travelling = true
  · simp only [if_pos ht]; exact .pure hp
  · simp only [if_neg ht]
    cases h : a.place with
    | link l => exact .error
    | gone l => exact .error
    | loc i =>
      have hi : i < w₀.nLoc := by have := hp.1; rw [h] at this; exact this
      have hS : S i = true := by have := hp.2.1; rw [h] at this; exact this
      have hm : ∀ w, ghost c w = ghost c w₀ → moveChance c a (w.loc i) w.time f = moveChance c a (w₀.loc i) w₀.time f := by
        intro w hg
        have e : ∀ l : Loc, moveChance c a (veilLoc c.fixedRoutes l) w₀.time f = moveChance c a l w₀.time f := fun _ => rfl
        rw [ghost_time hg, ← e, ghost_loc hg, e]
      cases hc : moveChance c a (w₀.loc i) w₀.time f with
      | error x =>
        refine Local.congr (f := fun _ => .error x) .error fun w hg => ?_
        simp only [hm w hg, hc]; rfl
      | ok m =>
        refine Local.congr (Local.bind .draw (g := fun u w => if u < m then tryDepart c w a i else .ok (w, a)) fun u _ => ?_)
          fun w hg => ?_
        · by_cases hu : u < m
          · simp only [if_pos hu]; exact local_tryDepart hw hi hS hp
          · simp only [if_neg hu]; exact .pure hp
        · simp only [hm w hg, hc]; rfl

theorem local_finishTravel : ∀ (fuel : Nat) {a : Agent}, Good S w₀ a →
    Local c S w₀ (Good S w₀) (fun w => finishTravel c fuel w a)
  | 0, _, _ => .error
  | fuel + 1, a, hp => by
    unfold finishTravel
    by_cases ht : a.travelling = true
    · simp only [if_pos ht]
      cases h : a.place with
      | loc l => exact .error
      | gone l => exact .error
      | link l =>
        have hl : l < w₀.nLink := by have := hp.1; rw [h] at this; exact this
        have hS : S (w₀.link l).start = true := by have := hp.2.1; rw [h] at this; exact this
        have hE : S (w₀.link l).endp = true := by rw [← hw.un.links l hl]; exact hS
        obtain ⟨h1, h2⟩ := hw.closed.ends l hl
        have hin : inPart S w₀ (.link l) = true := hS
        refine Local.congr (Local.bind .draw (g := fun u w =>
          let k := w₀.link l
          let speed := todaysSpeed c k a u
          let a := { a with dtol := a.dtol + speed, moved := a.moved + speed }
          if a.dtol > k.dist then
            let a := { a with
              places := a.places + 1, moved := a.moved + (k.dist - a.dtol), travelled := a.travelled + k.dist }
            if k.closed then
              .ok (handleTravel w a (.loc k.start) false)
            else
              let evolveMore := decide (a.moved < speed)
              let wa := handleTravel w a (.loc k.endp) false
              if evolveMore then do
                let (w, a) ← personEvolve c wa.1 wa.2 (forceTownMove c wa.2)
                finishTravel c fuel w a
              else .ok wa
          else .ok (w, a)) fun u _ => ?_) fun w hg => ?_
        · dsimp only
          split
          · split
            · exact Local.travel (by dsimp only; rw [h]; exact hin) hS ⟨h1, hS, hp.2.2⟩
            · split
              · refine Local.bind (Local.travel (Q := Good S w₀) (by dsimp only; rw [h]; exact hin) (by exact hE) ?_) (g := fun a' w => do
                  let (w, a) ← personEvolve c w a' (forceTownMove c a')
                  finishTravel c fuel w a) fun a' ha' => ?_
                · exact ⟨h2, hE, hp.2.2⟩
                · exact Local.bind (local_personEvolve hw ha') (g := fun a' w => finishTravel c fuel w a')
                    fun a' ha' => local_finishTravel fuel ha'
              · exact Local.travel (by dsimp only; rw [h]; exact hin) hE ⟨h2, hE, hp.2.2⟩
          · exact Local.pure hp
        · have e := ghost_link hg l
          have e1 : (w.link l).dist = (w₀.link l).dist := (congrArg Lnk.dist e :)
          have e2 : (w.link l).closed = (w₀.link l).closed := (congrArg Lnk.closed e :)
          have e3 : (w.link l).start = (w₀.link l).start := (congrArg Lnk.start e :)
          have e4 : (w.link l).endp = (w₀.link l).endp := (congrArg Lnk.endp e :)
          have e5 : ∀ u, todaysSpeed c (w.link l) a u = todaysSpeed c (w₀.link l) a u := fun u =>
            (congrArg (fun k => todaysSpeed c k a u) e :)
          simp only [e1, e2, e3, e4, e5]
          cases a
          dsimp only at h
          subst h
          rfl
    · simp only [if_neg ht]; exact .pure hp

theorem local_evolveOne {a : Agent} (hp : Good S w₀ a) : Local c S w₀ (Good S w₀) (fun w => evolveOne c w a) := by
  unfold evolveOne
  split
  · exact .pure hp
  · exact local_personEvolve hw hp

theorem local_finishOne {fuel : Nat} {a : Agent} (hp : Good S w₀ a) : Local c S w₀ (Good S w₀) (fun w => finishOne c fuel w a) := by
  unfold finishOne
  split
  · exact .pure hp
  · exact Local.bind (local_finishTravel hw fuel hp) (g := fun a w => .ok (w, { a with timesteps := a.timesteps + 1 }))
      fun a' ha' => Local.pure (Q := Good S w₀) (by exact ha')

omit hw in
theorem local_sinkOne {a : Agent} (hp : Good S w₀ a) : Local c S w₀ (Good S w₀) (fun w => .ok (sinkOne w a)) := by
  unfold sinkOne
  by_cases ht : a.travelling = true
  · simp only [if_pos ht]; exact .pure hp
  · simp only [if_neg ht]
    cases h : a.place with
    | link l => exact .pure hp
    | gone l => exact .pure hp
    | loc i =>
      have hi : Good S w₀ { a with place := .gone i } := by
        obtain ⟨h1, h2, h3⟩ := hp
        rw [h] at h1 h2
        exact ⟨h1, h2, h3⟩
      by_cases hk : (w₀.loc i).camp = true
      · refine Local.congr (Local.bind .draw (g := fun u w => if u < (w₀.loc i).deactProb then .ok (w, { a with place := .gone i })
          else .ok (w, a)) fun u _ => ?_) fun w hg => ?_
        · split
          · exact .pure hi
          · exact .pure hp
        · have e1 : (w.loc i).camp = (w₀.loc i).camp := (congrArg Loc.camp (ghost_loc hg i) :)
          have e2 : (w.loc i).deactProb = (w₀.loc i).deactProb := (congrArg Loc.deactProb (ghost_loc hg i) :)
          simp only [e1, e2, if_pos hk]
          show _ = if w.draw.1 < (w₀.loc i).deactProb then _ else _
          split <;> rfl
      · refine Local.congr (f := fun w => .ok (w, a)) (.pure hp) fun w hg => ?_
        have e1 : (w.loc i).camp = (w₀.loc i).camp := (congrArg Loc.camp (ghost_loc hg i) :)
        simp only [e1, if_neg hk]

end

/-! ### Lists of agents -/

/-- The other part. -/
def other (S : Nat → Bool) : Nat → Bool := fun i => !S i

theorem inPart_other (w : World) (p : Place) : inPart (other S) w p = !inPart S w p := by cases p <;> rfl

theorem Site.other {w : World} (h : Site c S w) : Site c (other S) w :=
  ⟨h.free, h.closed, h.wf, h.start, ⟨fun l hl => by simp only [Parts.other, h.un.links l hl],
    fun i hi j hj e => by simp only [Parts.other, h.un.names i hi j hj e]⟩⟩

/-- The agent is in one of the two parts and has no plans to go to the other one. -/
def Fine (S : Nat → Bool) (w : World) (a : Agent) : Prop := Good S w a ∨ Good (other S) w a

/-- Is the agent in the part? -/
def side (S : Nat → Bool) (w : World) (a : Agent) : Bool := inPart S w a.place

theorem Good.side {w : World} {a : Agent} (h : Good S w a) : side S w a = true := h.2.1

theorem Good.side_other {w : World} {a : Agent} (h : Good (Parts.other S) w a) : Parts.side S w a = false := by
  have := h.2.1
  rw [inPart_other] at this
  simpa [Parts.side] using this

theorem not_other {i : Nat} (h : S i = true) : other S i = false := by simp [other, h]

theorem other_not {i : Nat} (h : other S i = true) : S i = false := by simpa [other] using h

/-- What the agents of one part do when all agents are simulated, they can do when they are simulated without the others. -/
theorem each_part {w₀ : World} {f : Agent → World → Except Err (World × Agent)}
    (hS : ∀ a, Good S w₀ a → Local c S w₀ (Good S w₀) (f a))
    (hT : ∀ a, Good (other S) w₀ a → Local c (other S) w₀ (Good (other S) w₀) (f a)) : ∀ {as as' : List Agent} {w w' : World},
    (∀ a ∈ as, Fine S w₀ a) → ghost c w = ghost c w₀ → each f as w = .ok (w', as') →
    ghost c w' = ghost c w₀ ∧ (∀ a ∈ as', Fine S w₀ a) ∧ List.Forall₂ (fun a a' => side S w₀ a' = side S w₀ a) as as' ∧
    ∃ us vs, w.draws = feed us w'.draws ∧ (∀ u ∈ vs, u ∈ us) ∧ ∀ v rest, part S v = part S w → v.draws = feed vs rest →
      ∃ v', each f (as.filter (side S w₀)) v = .ok (v', as'.filter (side S w₀)) ∧ part S v' = part S w' ∧ v'.draws = rest
  | [], as', w, w', _, hg, h => by
    obtain ⟨rfl, rfl⟩ := Prod.mk.inj (Except.ok.inj h)
    exact ⟨hg, by simp, .nil, [], [], rfl, by simp, fun v rest hv hd => ⟨v, rfl, hv, hd⟩⟩
  | a :: as, as', w, w', hp, hg, h => by
    simp only [each, Except.bind_eq_ok] at h
    obtain ⟨⟨w1, a1⟩, h1, ⟨w2, as2⟩, h2, h⟩ := h
    obtain ⟨rfl, rfl⟩ := Prod.mk.inj (Except.ok.inj h)
    rcases hp a (by simp) with ha | ha
    · obtain ⟨q, e1, -, us, d1, c1⟩ := hS a ha w w1 a1 hg h1
      obtain ⟨g1, g2, g3, us', vs', g4, g5, g6⟩ := each_part hS hT (fun b hb => hp b (by simp [hb])) e1 h2
      refine ⟨g1, ?_, .cons (q.side.trans ha.side.symm) g3, us ++ us', us ++ vs', by rw [feed_append, ← g4, ← d1], ?_, ?_⟩
      · simp only [List.mem_cons, forall_eq_or_imp]
        exact ⟨.inl q, g2⟩
      · simp only [List.mem_append]
        exact fun u h => h.imp id (g5 u)
      · intro v rest hv hd
        rw [feed_append] at hd
        obtain ⟨v1, k1, k2, k3⟩ := c1 v _ hv hd
        obtain ⟨v2, l1, l2, l3⟩ := g6 v1 rest k2 k3
        refine ⟨v2, ?_, l2, l3⟩
        rw [List.filter_cons_of_pos ha.side, List.filter_cons_of_pos q.side, each]
        show (f a v >>= _) = _
        rw [k1]
        show (each f _ v1 >>= _) = _
        rw [l1]
        rfl
    · obtain ⟨q, e1, t1, us, d1, -⟩ := hT a ha w w1 a1 hg h1
      obtain ⟨g1, g2, g3, us', vs', g4, g5, g6⟩ := each_part hS hT (fun b hb => hp b (by simp [hb])) e1 h2
      refine ⟨g1, ?_, .cons (q.side_other.trans ha.side_other.symm) g3, us ++ us', vs', by rw [feed_append, ← g4, ← d1], ?_, ?_⟩
      · simp only [List.mem_cons, forall_eq_or_imp]
        exact ⟨.inr q, g2⟩
      · exact fun u h => List.mem_append_right _ (g5 u h)
      · intro v rest hv hd
        rw [List.filter_cons_of_neg (by simp [ha.side_other]), List.filter_cons_of_neg (by simp [q.side_other])]
        exact g6 v rest (hv.trans (t1 S fun i => not_other).symm) hd

/-- What the agents of both parts can do without the others, they can do together. -/
theorem each_join {w₀ : World} {f : Agent → World → Except Err (World × Agent)}
    (hS : ∀ a, Good S w₀ a → Local c S w₀ (Good S w₀) (f a))
    (hT : ∀ a, Good (other S) w₀ a → Local c (other S) w₀ (Good (other S) w₀) (f a)) : ∀ {as bs cs : List Agent} {v v' t t' : World},
    (∀ a ∈ as, Fine S w₀ a) → ghost c v = ghost c w₀ → ghost c t = ghost c w₀ → InUnit v.draws → InUnit t.draws →
    each f (as.filter (side S w₀)) v = .ok (v', bs) → each f (as.filter fun a => !side S w₀ a) t = .ok (t', cs) →
    ghost c v' = ghost c w₀ ∧ ghost c t' = ghost c w₀ ∧ InUnit v'.draws ∧ InUnit t'.draws ∧ ∃ as' us, (∀ u ∈ us, 0 ≤ u ∧ u < 1) ∧
      (∀ a ∈ as', Fine S w₀ a) ∧ as'.filter (side S w₀) = bs ∧ (as'.filter fun a => !side S w₀ a) = cs ∧
      List.Forall₂ (fun a a' => side S w₀ a' = side S w₀ a) as as' ∧
      ∀ w rest, part S w = part S v → part (other S) w = part (other S) t → w.draws = feed us rest →
        ∃ w', each f as w = .ok (w', as') ∧ part S w' = part S v' ∧ part (other S) w' = part (other S) t' ∧ w'.draws = rest
  | [], bs, cs, v, v', t, t', _, hv, ht, dv, dt, h, h' => by
    obtain ⟨rfl, rfl⟩ := Prod.mk.inj (Except.ok.inj h)
    obtain ⟨rfl, rfl⟩ := Prod.mk.inj (Except.ok.inj h')
    exact ⟨hv, ht, dv, dt, [], [], by simp, by simp, rfl, rfl, .nil, fun w rest h1 h2 hd => ⟨w, rfl, h1, h2, hd⟩⟩
  | a :: as, bs, cs, v, v', t, t', hp, hv, ht, dv, dt, h, h' => by
    rcases hp a (by simp) with ha | ha
    · rw [List.filter_cons_of_pos ha.side] at h
      rw [List.filter_cons_of_neg (by simp [ha.side])] at h'
      simp only [each, Except.bind_eq_ok] at h
      obtain ⟨⟨v1, a1⟩, h1, ⟨v2, as2⟩, h2, h⟩ := h
      obtain ⟨rfl, rfl⟩ := Prod.mk.inj (Except.ok.inj h)
      obtain ⟨q, e1, -, us, d1, c1⟩ := hS a ha v v1 a1 hv h1
      rw [d1, feed_unit] at dv
      obtain ⟨g1, g2, g3, g4, as', us', g5, g6, rfl, rfl, g7, g8⟩ :=
        each_join hS hT (fun b hb => hp b (by simp [hb])) e1 ht dv.2 dt h2 h'
      refine ⟨g1, g2, g3, g4, a1 :: as', us ++ us', by simp only [List.forall_mem_append]; exact ⟨dv.1, g5⟩, ?_,
        List.filter_cons_of_pos q.side, List.filter_cons_of_neg (by simp [q.side]), .cons (q.side.trans ha.side.symm) g7,
        fun w rest k1 k2 hd => ?_⟩
      · simp only [List.mem_cons, forall_eq_or_imp]
        exact ⟨.inl q, g6⟩
      · rw [feed_append] at hd
        obtain ⟨w1, l1, l2, l3⟩ := c1 w _ k1 hd
        obtain ⟨-, -, t1, -⟩ := hS a ha w w1 a1 ((ghost_of_part k1).trans hv) l1
        obtain ⟨w2, m1, m2, m3, m4⟩ := g8 w1 rest l2 ((t1 (other S) fun i => other_not).trans k2) l3
        refine ⟨w2, ?_, m2, m3, m4⟩
        rw [each, l1]
        show (each f _ w1 >>= _) = _
        rw [m1]
        rfl
    · rw [List.filter_cons_of_neg (by simp [ha.side_other])] at h
      rw [List.filter_cons_of_pos (by simp [ha.side_other])] at h'
      simp only [each, Except.bind_eq_ok] at h'
      obtain ⟨⟨t1, a1⟩, h1, ⟨t2, as2⟩, h2, h'⟩ := h'
      obtain ⟨rfl, rfl⟩ := Prod.mk.inj (Except.ok.inj h')
      obtain ⟨q, e1, -, us, d1, c1⟩ := hT a ha t t1 a1 ht h1
      rw [d1, feed_unit] at dt
      obtain ⟨g1, g2, g3, g4, as', us', g5, g6, rfl, rfl, g7, g8⟩ :=
        each_join hS hT (fun b hb => hp b (by simp [hb])) hv e1 dv dt.2 h h2
      refine ⟨g1, g2, g3, g4, a1 :: as', us ++ us', by simp only [List.forall_mem_append]; exact ⟨dt.1, g5⟩, ?_,
        List.filter_cons_of_neg (by simp [q.side_other]), List.filter_cons_of_pos (by simp [q.side_other]),
        .cons (q.side_other.trans ha.side_other.symm) g7, fun w rest k1 k2 hd => ?_⟩
      · simp only [List.mem_cons, forall_eq_or_imp]
        exact ⟨.inr q, g6⟩
      · rw [feed_append] at hd
        obtain ⟨w1, l1, l2, l3⟩ := c1 w _ k2 hd
        obtain ⟨-, -, t1, -⟩ := hT a ha w w1 a1 ((ghost_of_part k2).trans ht) l1
        obtain ⟨w2, m1, m2, m3, m4⟩ := g8 w1 rest ((t1 S fun i => not_other).trans k1) l2 l3
        refine ⟨w2, ?_, m2, m3, m4⟩
        rw [each, l1]
        show (each f _ w1 >>= _) = _
        rw [m1]
        rfl

/-! ### One day -/

theorem part_edit (w : World) (i : Nat) (g : Loc → Loc) (hg : ∀ l : Loc, g { l with numAgents := 0, numAgentsSpawned := 0 } =
    { g l with numAgents := 0, numAgentsSpawned := 0 }) :
    (part S w).setLoc i (g ((part S w).loc i)) = part S (w.setLoc i (g (w.loc i))) := by
  simp only [part, World.setLoc]
  congr 1
  funext j
  by_cases h : j = i
  · subst h
    by_cases k : S j = true <;> simp [upd, k, hg]
  · simp [upd, h]

theorem locationScore_part (t : Nat) (w : World) (i : Nat) : locationScore c t ((part S w).loc i) = locationScore c t (w.loc i) := by
  by_cases k : S i = true
  · simp only [part, if_pos k]
  · simp only [part, if_neg k]
    rfl

theorem updateScores_part (hf : c.fixedRoutes = false) (w : World) : updateScores c (part S w) = (updateScores c w).map (part S) := by
  unfold updateScores
  refine Change.foldlM_same (List.range w.nLoc) (fun w1 i _ => ?_) w
  rw [part_edit w1 i (fun l => { l with routes := [] }) fun _ => rfl]
  generalize w1.setLoc i { w1.loc i with routes := [] } = w2
  unfold updateLocationScore
  refine Except.bind_map_eq (g := id) ((locationScore_part w1.time w2 i).trans (Except.map_id_eq _)) fun x _ => ?_
  simp only [hf, Bool.false_eq_true, if_false, id_eq]
  rw [part_edit w2 i (fun l => { l with score := x }) fun _ => rfl]
  rfl

theorem updateScores_draws_free (hf : c.fixedRoutes = false) {w w' : World} (h : updateScores c w = .ok w') : w'.draws = w.draws := by
  unfold updateScores at h
  have key : ∀ (l : List Nat) (w w' : World), l.foldlM (fun w i =>
      updateLocationScore c w.time (w.setLoc i { w.loc i with routes := [] }) i) w = .ok w' → w'.draws = w.draws := by
    intro l
    induction l with
    | nil => intro w w' h; cases Except.ok.inj h; rfl
    | cons i l ih =>
      intro w w' h
      rw [List.foldlM_cons, Except.bind_eq_ok] at h
      obtain ⟨w1, h1, h2⟩ := h
      rw [ih w1 w' h2]
      simp only [updateLocationScore, hf, Bool.false_eq_true, if_false, Except.bind_eq_ok, Except.pure_eq_ok] at h1
      obtain ⟨x, -, rfl⟩ := h1
      rfl
  exact key _ w w' h

/-- The scores are the same in all worlds where the part is the same. -/
theorem updateScores_same (hf : c.fixedRoutes = false) {v w w' : World} (hp : part S v = part S w) (h : updateScores c w = .ok w') :
    ∃ v', updateScores c v = .ok v' ∧ part S v' = part S w' ∧ v'.draws = v.draws := by
  have e : updateScores c (part S w) = .ok (part S w') := by rw [updateScores_part hf, h]; rfl
  rw [← hp, updateScores_part hf] at e
  cases h' : updateScores c v with
  | error x => rw [h'] at e; cases e
  | ok v' => rw [h'] at e; exact ⟨v', rfl, Except.ok.inj e, updateScores_draws_free hf h'⟩

theorem Site.scores {w w' : World} (h : Site c S w) (g : updateScores c w = .ok w') : Site c S w' := by
  have hr := updateScores_rescored g
  have hl : ∀ i, (w'.loc i).links = (w.loc i).links := fun i => (congrArg Loc.links (hr.loc i) :)
  have hn : ∀ i, (w'.loc i).name = (w.loc i).name := fun i => (congrArg Loc.name (hr.loc i) :)
  refine ⟨h.free, ⟨?_, ?_⟩, ⟨?_, ?_, ?_⟩, ?_, ⟨?_, ?_⟩⟩ <;> simp only [hr.nLoc, hr.nLink, hr.link, hl, hn]
  · exact h.closed.mem
  · exact h.closed.ends
  · exact h.wf.links
  · exact h.wf.ends
  · exact h.wf.nodup
  · exact h.start
  · exact h.un.links
  · exact h.un.names

theorem Site.tick {w : World} (h : Site c S w) : Site c S (tick w) :=
  ⟨h.free, ⟨h.closed.mem, h.closed.ends⟩, ⟨h.wf.links, h.wf.ends, h.wf.nodup⟩, h.start, ⟨h.un.links, h.un.names⟩⟩

/-- Worlds with the same places. -/
structure SamePlaces (v w : World) : Prop where
  nLoc : v.nLoc = w.nLoc
  nLink : v.nLink = w.nLink
  name : ∀ i, (v.loc i).name = (w.loc i).name
  start : ∀ l, (v.link l).start = (w.link l).start

theorem SamePlaces.trans {u v w : World} (h : SamePlaces u v) (g : SamePlaces v w) : SamePlaces u w :=
  ⟨h.nLoc.trans g.nLoc, h.nLink.trans g.nLink, fun i => (h.name i).trans (g.name i), fun l => (h.start l).trans (g.start l)⟩

theorem samePlaces_ghost {v w : World} (e : ghost c v = ghost c w) : SamePlaces v w :=
  ⟨ghost_nLoc e, ghost_nLink e, fun i => (congrArg Loc.name (ghost_loc e i) :), fun l => (congrArg Lnk.start (ghost_link e l) :)⟩

theorem samePlaces_scores {w w' : World} (g : updateScores c w = .ok w') : SamePlaces w' w := by
  have hr := updateScores_rescored g
  exact ⟨hr.nLoc, hr.nLink, fun i => (congrArg Loc.name (hr.loc i) :), fun l => by rw [hr.link]⟩

theorem SamePlaces.inPart {v w : World} (h : SamePlaces v w) (p : Place) : inPart S v p = inPart S w p := by
  cases p with
  | loc i => rfl
  | link l => rw [Spec.inPart, Spec.inPart, h.start]
  | gone i => rfl

theorem SamePlaces.side {v w : World} (h : SamePlaces v w) : Parts.side S v = Parts.side S w := funext fun a => h.inPart a.place

theorem SamePlaces.good {v w : World} (h : SamePlaces v w) {a : Agent} (ha : Good S w a) : Good S v a := by
  refine ⟨placeOK_of h.nLoc h.nLink ha.1, by rw [h.inPart]; exact ha.2.1, fun s hs => ?_⟩
  obtain ⟨i, h1, h2, h3⟩ := ha.2.2 s hs
  exact ⟨i, h.nLoc ▸ h1, by rw [h.name]; exact h2, h3⟩

theorem SamePlaces.fine {v w : World} (h : SamePlaces v w) {a : Agent} (ha : Fine S w a) : Fine S v a := ha.imp h.good h.good

theorem side_recent (w : World) (a : Agent) : side S w (updateRecent c a) = side S w a := rfl

theorem Fine.recent {w : World} {a : Agent} (h : Fine S w a) : Fine S w (updateRecent c a) := h

theorem filter_recent (w : World) (as : List Agent) :
    (as.map (updateRecent c)).filter (side S w) = (as.filter (side S w)).map (updateRecent c) := by
  rw [List.filter_map]; rfl

theorem filter_recent_not (w : World) (as : List Agent) :
    ((as.map (updateRecent c)).filter fun a => !side S w a) = (as.filter fun a => !side S w a).map (updateRecent c) := by
  rw [List.filter_map]; rfl

/-- The last phase of the day. -/
def endDay (c : Cfg) (w : World) (as : List Agent) : World × List Agent := if c.campsAreSinks then sinkAll w as else (w, as)

/-- The last phase of the day as a loop over agents. -/
def endOne (c : Cfg) (a : Agent) (w : World) : Except Err (World × Agent) := if c.campsAreSinks then .ok (sinkOne w a) else .ok (w, a)

theorem endDay_each (as : List Agent) (w : World) : .ok (endDay c w as) = each (endOne c) as w := by
  unfold endDay endOne
  by_cases h : c.campsAreSinks = true
  · simp only [if_pos h]; exact sinkAll_each as w
  · simp only [if_neg h]
    induction as with
    | nil => rfl
    | cons a as ih => rw [each]; show _ = (each _ as w >>= _); rw [← ih]; rfl

theorem local_endOne {w₀ : World} {a : Agent} (hp : Good S w₀ a) : Local c S w₀ (Good S w₀) (endOne c a) := by
  unfold endOne
  by_cases h : c.campsAreSinks = true
  · simp only [if_pos h]; exact local_sinkOne hp
  · simp only [if_neg h]; exact .pure hp

theorem evolve_phases {fuel : Nat} {e e' : Eco} : e.evolve c fuel = .ok e' ↔ ∃ sw w1 w2 as2 w3 as3 w4 as4, refreshSpawnWeights c e.w = .ok sw ∧
    updateScores c e.w = .ok w1 ∧ each (fun a w => evolveOne c w a) e.agents w1 = .ok (w2, as2) ∧
    each (fun a w => finishOne c fuel w a) as2 w2 = .ok (w3, as3) ∧ each (endOne c) (as3.map (updateRecent c)) w3 = .ok (w4, as4) ∧
    e' = { e with w := tick w4, agents := as4, spawnWeights := sw } := by
  simp only [Eco.evolve, Except.bind_eq_ok, Except.pure_eq_ok, ← endDay_each, ← evolveAll_each, ← finishAll_each]
  constructor
  · rintro ⟨sw, h0, w1, h1, ⟨w2, as2⟩, h2, ⟨w3, as3⟩, h3, rfl⟩
    refine ⟨sw, w1, w2, as2, w3, as3, (endDay c w3 (as3.map (updateRecent c))).1, (endDay c w3 (as3.map (updateRecent c))).2, h0, h1, h2, h3,
      rfl, ?_⟩
    unfold endDay
    split <;> rfl
  · rintro ⟨sw, w1, w2, as2, w3, as3, w4, as4, h0, h1, h2, h3, h4, rfl⟩
    refine ⟨sw, h0, w1, h1, ⟨w2, as2⟩, h2, ⟨w3, as3⟩, h3, ?_⟩
    have h4 := Except.ok.inj h4
    unfold endDay at h4
    split at h4
    · rename_i hk; simp only [hk, if_true, h4]; rfl
    · rename_i hk; simp only [hk, if_false, h4]; obtain ⟨rfl, rfl⟩ := Prod.mk.inj h4; rfl

theorem forall₂_trans {α : Type} {R : α → α → Prop} (hR : ∀ a b c, R a b → R b c → R a c) {as bs cs : List α}
    (h : List.Forall₂ R as bs) (g : List.Forall₂ R bs cs) : List.Forall₂ R as cs :=
  (Alone.forall₂_comp h g).imp fun a c ⟨b, h1, h2⟩ => hR a b c h1 h2

theorem forall₂_recent {w : World} {as bs : List Agent} (h : List.Forall₂ (fun a a' => side S w a' = side S w a) as bs) :
    List.Forall₂ (fun a a' => side S w a' = side S w a) as (bs.map (updateRecent c)) := by
  rw [List.forall₂_map_right_iff]
  exact h

/-- A day of all agents and a day of the agents of one part. -/
theorem evolve_part {fuel : Nat} {e e' : Eco} (hw : Site c S e.w) (ha : ∀ a ∈ e.agents, Fine S e.w a) (h : e.evolve c fuel = .ok e') :
    Site c S e'.w ∧ SamePlaces e'.w e.w ∧ (∀ a ∈ e'.agents, Fine S e'.w a) ∧
    List.Forall₂ (fun a a' => side S e.w a' = side S e.w a) e.agents e'.agents ∧
    ∃ us vs, e.w.draws = feed us e'.w.draws ∧ (∀ u ∈ vs, u ∈ us) ∧ ∀ (d : Eco) rest, part S d.w = part S e.w →
      d.agents = e.agents.filter (side S e.w) → d.w.draws = feed vs rest →
      ∃ d', d.evolve c fuel = .ok d' ∧ d'.agents = e'.agents.filter (side S e.w) ∧ part S d'.w = part S e'.w ∧ d'.w.draws = rest := by
  obtain ⟨sw, w1, w2, as2, w3, as3, w4, as4, h0, h1, h2, h3, h4, rfl⟩ := evolve_phases.1 h
  have s1 := hw.scores h1
  have sp := samePlaces_scores h1
  have hside : side S e.w = side S w1 := sp.side.symm
  obtain ⟨g2, f2, k2, us2, vs2, d2, i2, c2⟩ := each_part (fun a ha => local_evolveOne s1 ha) (fun a ha => local_evolveOne s1.other ha)
    (fun a h => sp.fine (ha a h)) rfl h2
  obtain ⟨g3, f3, k3, us3, vs3, d3, i3, c3⟩ := each_part (fun a ha => local_finishOne s1 ha) (fun a ha => local_finishOne s1.other ha) f2 g2 h3
  have f3' : ∀ a ∈ as3.map (updateRecent c), Fine S w1 a := by
    simp only [List.mem_map, forall_exists_index, and_imp, forall_apply_eq_imp_iff₂]
    exact f3
  obtain ⟨g4, f4, k4, us4, vs4, d4, i4, c4⟩ := each_part (c := c) (fun a ha => local_endOne ha) (fun a ha => local_endOne ha) f3' g3 h4
  have sp4 : SamePlaces (tick w4) w1 := by
    have := samePlaces_ghost g4
    exact ⟨this.nLoc, this.nLink, this.name, this.start⟩
  refine ⟨(s1.ghost g4).tick, sp4.trans sp, fun a h => sp4.fine (f4 a h), ?_, us2 ++ (us3 ++ us4), vs2 ++ (vs3 ++ vs4), ?_, ?_, ?_⟩
  · rw [hside]
    exact forall₂_trans (fun _ _ _ h g => g.trans h) k2 (forall₂_trans (fun _ _ _ h g => g.trans h) (forall₂_recent k3) k4)
  · rw [feed_append, feed_append]
    show _ = feed us2 (feed us3 (feed us4 w4.draws))
    rw [← d4, ← d3, ← d2, updateScores_draws_free hw.free h1]
  · simp only [List.mem_append]
    exact fun u h => h.imp (i2 u) fun h => h.imp (i3 u) (i4 u)
  · intro d rest hp hd hr
    rw [feed_append, feed_append] at hr
    obtain ⟨v1, m1, m2, m3⟩ := updateScores_same hw.free hp h1
    obtain ⟨v2, n1, n2, n3⟩ := c2 v1 _ m2 (m3.trans hr)
    obtain ⟨v3, o1, o2, o3⟩ := c3 v2 _ n2 n3
    obtain ⟨v4, q1, q2, q3⟩ := c4 v3 _ o2 o3
    obtain ⟨sw', hsw⟩ := refreshSpawnWeights_ghost (c := c) (ghost_of_part hp) ⟨sw, h0⟩
    refine ⟨{ d with w := tick v4, agents := as4.filter (side S w1), spawnWeights := sw' }, evolve_phases.2 ⟨sw', v1, v2, _, v3, _, v4, _, hsw, m1, ?_, o1, ?_, rfl⟩, ?_, ?_, q3⟩
    · rw [hd, hside]; exact n1
    · rw [← filter_recent]; exact q1
    · rw [hside]
    · exact congrArg tick q2

/-- Days of all agents and days of the agents of one part. -/
theorem days_part {fuel : Nat} : ∀ {n : Nat} {e e' : Eco}, Site c S e.w → (∀ a ∈ e.agents, Fine S e.w a) → days c fuel n e = .ok e' →
    List.Forall₂ (fun a a' => side S e.w a' = side S e.w a) e.agents e'.agents ∧
    ∃ us vs, e.w.draws = feed us e'.w.draws ∧ (∀ u ∈ vs, u ∈ us) ∧ ∀ (d : Eco) rest, part S d.w = part S e.w →
      d.agents = e.agents.filter (side S e.w) → d.w.draws = feed vs rest →
      ∃ d', days c fuel n d = .ok d' ∧ d'.agents = e'.agents.filter (side S e.w)
  | 0, e, e', _, _, h => by
    cases Except.ok.inj h
    exact ⟨List.forall₂_same.2 fun _ _ => rfl, [], [], rfl, by simp, fun d rest _ hd _ => ⟨d, rfl, hd⟩⟩
  | n + 1, e, e', hw, ha, h => by
    obtain ⟨e1, h1, h2⟩ := Except.bind_eq_ok.1 (show (e.evolve c fuel >>= days c fuel n) = .ok e' from h)
    obtain ⟨s1, sp, f1, k1, us, vs, d1, i1, c1⟩ := evolve_part hw ha h1
    obtain ⟨k2, us2, vs2, d2, i2, c2⟩ := days_part s1 f1 h2
    rw [sp.side] at k2 c2
    refine ⟨forall₂_trans (fun _ _ _ h g => g.trans h) k1 k2, us ++ us2, vs ++ vs2, by rw [feed_append, ← d2, ← d1], ?_, fun d rest hp hd hr => ?_⟩
    · simp only [List.mem_append]
      exact fun u h => h.imp (i1 u) (i2 u)
    · rw [feed_append] at hr
      obtain ⟨d', m1, m2, m3, m4⟩ := c1 d _ hp hd hr
      obtain ⟨d'', n1, n2⟩ := c2 d' rest m3 m2 m4
      refine ⟨d'', ?_, n2⟩
      show (d.evolve c fuel).bind (days c fuel n) = _
      rw [m1]
      exact n1

/-- A day of the agents of each part, put together. -/
theorem evolve_join {fuel : Nat} {w₀ : World} {as : List Agent} {d d' t t' : Eco} (hw : Site c S w₀) (ha : ∀ a ∈ as, Fine S w₀ a)
    (hd : ghost c d.w = ghost c w₀) (ht : ghost c t.w = ghost c w₀) (ud : InUnit d.w.draws) (ut : InUnit t.w.draws)
    (ad : d.agents = as.filter (side S w₀)) (at' : t.agents = as.filter fun a => !side S w₀ a)
    (h : d.evolve c fuel = .ok d') (h' : t.evolve c fuel = .ok t') :
    ∃ w₁ as' us, Site c S w₁ ∧ SamePlaces w₁ w₀ ∧ (∀ a ∈ as', Fine S w₁ a) ∧ ghost c d'.w = ghost c w₁ ∧ ghost c t'.w = ghost c w₁ ∧
      InUnit d'.w.draws ∧ InUnit t'.w.draws ∧ d'.agents = as'.filter (side S w₀) ∧ (t'.agents = as'.filter fun a => !side S w₀ a) ∧
      List.Forall₂ (fun a a' => side S w₀ a' = side S w₀ a) as as' ∧ (∀ u ∈ us, 0 ≤ u ∧ u < 1) ∧
      ∀ (e : Eco) rest, part S e.w = part S d.w → part (other S) e.w = part (other S) t.w → e.agents = as → e.w.draws = feed us rest →
        ∃ e', e.evolve c fuel = .ok e' ∧ e'.agents = as' ∧ part S e'.w = part S d'.w ∧ part (other S) e'.w = part (other S) t'.w ∧
          e'.w.draws = rest := by
  obtain ⟨sw, w1, w2, as2, w3, as3, w4, as4, h0, h1, h2, h3, h4, rfl⟩ := evolve_phases.1 h
  obtain ⟨tw, t1, t2, bs2, t3, bs3, t4, bs4, l0, l1, l2, l3, l4, rfl⟩ := evolve_phases.1 h'
  have s1 := (hw.ghost hd).scores h1
  have sp : SamePlaces w1 w₀ := (samePlaces_scores h1).trans (samePlaces_ghost hd)
  have hside : side S w₀ = side S w1 := sp.side.symm
  have gt : ghost c t1 = ghost c w1 := by
    obtain ⟨_, hn⟩ := updateScores_ghost h1
    obtain ⟨v, k1, k2, -⟩ := hn t.w (ht.trans hd.symm)
    cases Except.ok.inj (k1.symm.trans l1)
    exact k2
  rw [ad, hside] at h2
  rw [at', hside] at l2
  obtain ⟨g2, j2, ud2, ut2, cs2, us2, i2, f2, rfl, rfl, k2, c2⟩ := each_join (fun a ha => local_evolveOne s1 ha)
    (fun a ha => local_evolveOne s1.other ha) (fun a h => sp.fine (ha a h)) rfl gt
    (by rw [updateScores_draws_free hw.free h1]; exact ud) (by rw [updateScores_draws_free hw.free l1]; exact ut) h2 l2
  obtain ⟨g3, j3, ud3, ut3, cs3, us3, i3, f3, rfl, rfl, k3, c3⟩ := each_join (fun a ha => local_finishOne s1 ha)
    (fun a ha => local_finishOne s1.other ha) f2 g2 j2 ud2 ut2 h3 l3
  have f3' : ∀ a ∈ cs3.map (updateRecent c), Fine S w1 a := by
    simp only [List.mem_map, forall_exists_index, and_imp, forall_apply_eq_imp_iff₂]
    exact f3
  rw [← filter_recent] at h4
  rw [← filter_recent_not] at l4
  obtain ⟨g4, j4, ud4, ut4, cs4, us4, i4, f4, rfl, rfl, k4, c4⟩ := each_join (c := c) (fun a ha => local_endOne ha)
    (fun a ha => local_endOne ha) f3' g3 j3 ud3 ut3 h4 l4
  have sp4 : SamePlaces (tick w1) w1 := ⟨rfl, rfl, fun _ => rfl, fun _ => rfl⟩
  refine ⟨tick w1, cs4, us2 ++ (us3 ++ us4), s1.tick, sp4.trans sp, fun a h => sp4.fine (f4 a h), congrArg tick g4, congrArg tick j4, ud4, ut4,
    by rw [hside], by rw [hside], ?_, by simp only [List.forall_mem_append]; exact ⟨i2, i3, i4⟩, fun e rest e1 e2 e3 e4 => ?_⟩
  · rw [hside]
    exact forall₂_trans (fun _ _ _ h g => g.trans h) k2 (forall₂_trans (fun _ _ _ h g => g.trans h) (forall₂_recent k3) k4)
  · rw [feed_append, feed_append] at e4
    obtain ⟨v1, m1, m2, m3⟩ := updateScores_same hw.free e1 h1
    obtain ⟨v1', m1', m4, -⟩ := updateScores_same hw.free e2 l1
    cases Except.ok.inj (m1.symm.trans m1')
    obtain ⟨v2, n1, n2, n3, n4⟩ := c2 v1 _ m2 m4 (m3.trans e4)
    obtain ⟨v3, o1, o2, o3, o4⟩ := c3 v2 _ n2 n3 n4
    obtain ⟨v4, q1, q2, q3, q4⟩ := c4 v3 _ o2 o3 o4
    obtain ⟨sw', hsw⟩ := refreshSpawnWeights_ghost (c := c) (ghost_of_part e1) ⟨sw, h0⟩
    refine ⟨{ e with w := tick v4, agents := cs4, spawnWeights := sw' },
      evolve_phases.2 ⟨sw', v1, v2, _, v3, _, v4, _, hsw, m1, by rw [e3]; exact n1, o1, q1, rfl⟩, rfl, congrArg tick q2, congrArg tick q3, q4⟩

/-- Days of the agents of each part, put together. -/
theorem days_join {fuel : Nat} : ∀ {n : Nat} {w₀ : World} {as : List Agent} {d d' t t' : Eco}, Site c S w₀ → (∀ a ∈ as, Fine S w₀ a) →
    ghost c d.w = ghost c w₀ → ghost c t.w = ghost c w₀ → InUnit d.w.draws → InUnit t.w.draws →
    d.agents = as.filter (side S w₀) → (t.agents = as.filter fun a => !side S w₀ a) →
    days c fuel n d = .ok d' → days c fuel n t = .ok t' →
    ∃ as' us, d'.agents = as'.filter (side S w₀) ∧ (t'.agents = as'.filter fun a => !side S w₀ a) ∧
      List.Forall₂ (fun a a' => side S w₀ a' = side S w₀ a) as as' ∧ (∀ u ∈ us, 0 ≤ u ∧ u < 1) ∧
      ∀ (e : Eco) rest, part S e.w = part S d.w → part (other S) e.w = part (other S) t.w → e.agents = as → e.w.draws = feed us rest →
        ∃ e', days c fuel n e = .ok e' ∧ e'.agents = as'
  | 0, w₀, as, d, d', t, t', _, _, _, _, _, _, ad, at', h, h' => by
    cases Except.ok.inj h
    cases Except.ok.inj h'
    exact ⟨as, [], ad, at', List.forall₂_same.2 fun _ _ => rfl, by simp, fun e _ _ _ ha _ => ⟨e, rfl, ha⟩⟩
  | n + 1, w₀, as, d, d', t, t', hw, ha, hd, ht, ud, ut, ad, at', h, h' => by
    obtain ⟨d1, h1, h2⟩ := Except.bind_eq_ok.1 (show (d.evolve c fuel >>= days c fuel n) = .ok d' from h)
    obtain ⟨t1, l1, l2⟩ := Except.bind_eq_ok.1 (show (t.evolve c fuel >>= days c fuel n) = .ok t' from h')
    obtain ⟨w₁, as₁, us, s1, sp, f1, gd, gt, ud1, ut1, ad1, at1, k1, i1, c1⟩ := evolve_join hw ha hd ht ud ut ad at' h1 l1
    obtain ⟨as', us', ad2, at2, k2, i2, c2⟩ := days_join s1 f1 gd gt ud1 ut1 (by rw [sp.side]; exact ad1) (by rw [sp.side]; exact at1) h2 l2
    rw [sp.side] at ad2 at2 k2
    refine ⟨as', us ++ us', ad2, at2, forall₂_trans (fun _ _ _ h g => g.trans h) k1 k2,
      by simp only [List.forall_mem_append]; exact ⟨i1, i2⟩, fun e rest e1 e2 e3 e4 => ?_⟩
    rw [feed_append] at e4
    obtain ⟨e', m1, m2, m3, m4, m5⟩ := c1 e _ e1 e2 e3 e4
    obtain ⟨e'', n1, n2⟩ := c2 e' rest m3 m4 m2 m5
    refine ⟨e'', ?_, n2⟩
    show (e.evolve c fuel).bind (days c fuel n) = _
    rw [m1]
    exact n1

/-! ### Reachable states -/

theorem site_of {w : World} {as : List Agent} (hf : c.fixedRoutes = false) (hi : Inv w as) (hu : Unconnected S w) : Site c S w :=
  ⟨hf, hi.closed, hi.wellFormed, fun i h l hl => (hi.lnk i h l (.inl hl)).2, hu⟩

theorem unconnected_before {m : Bool → Prop} {n : Nat → Nat} {w w' : World} (g : Grow m n w w') (h : Unconnected S w') :
    Unconnected S w := by
  refine ⟨fun l hl => ?_, fun i hi j hj e => ?_⟩
  · rw [← g.start l hl, ← g.endp l hl]
    exact h.links l (hl.trans_le g.nLink)
  · refine h.names i (hi.trans_le g.nLoc) j (hj.trans_le g.nLoc) ?_
    rw [g.names i hi, g.names j hj]
    exact e

theorem good_grow {m : Bool → Prop} {n : Nat → Nat} {w w' : World} (g : Grow m n w w') {a : Agent} (h : Good S w a) : Good S w' a := by
  obtain ⟨h1, h2, h3⟩ := h
  have h4 : ∀ s, Way.name s ∈ a.route → ∃ i < w'.nLoc, (w'.loc i).name.val = s ∧ S i = true := fun s hs => by
    obtain ⟨i, k1, k2, k3⟩ := h3 s hs
    exact ⟨i, k1.trans_le g.nLoc, by rw [g.names i k1]; exact k2, k3⟩
  unfold Good
  cases e : a.place with
  | loc i => rw [e] at h1 h2; exact ⟨lt_of_lt_of_le h1 g.nLoc, h2, h4⟩
  | link l =>
    rw [e] at h1 h2
    exact ⟨lt_of_lt_of_le h1 g.nLink, by show S (w'.link l).start = true; rw [g.start l h1]; exact h2, h4⟩
  | gone i => rw [e] at h1 h2; exact ⟨lt_of_lt_of_le h1 g.nLoc, h2, h4⟩

/-- In reachable states agents have no plans to go to the other part. -/
theorem reach_fine {draws : Nat → ℚ} {e : Eco} (hf : c.fixedRoutes = false) (h : Reach c draws e) : Unconnected S e.w →
    ∀ a ∈ e.agents, Fine S e.w a := by
  induction h with
  | empty => intro _ a ha; cases ha
  | @step e e' op h _ hx ih =>
    intro hu
    have hi := reach_inv h
    obtain ⟨n, g, -⟩ := exec_grow hi hx
    have hu0 := unconnected_before g hu
    have old := ih hu0
    have keep : ∀ a ∈ e.agents, Fine S e'.w a := fun a ha => (old a ha).imp (good_grow g) (good_grow g)
    have new : ∀ a : Agent, a.route = [] → PlaceOK e'.w a.place → Fine S e'.w a := fun a hr hp => by
      by_cases k : inPart S e'.w a.place = true
      · exact .inl ⟨hp, k, fun s hs => by rw [hr] at hs; cases hs⟩
      · exact .inr ⟨hp, by rw [inPart_other]; simpa using k, fun s hs => by rw [hr] at hs; cases hs⟩
    have hi' := exec_inv hi hx
    cases exec_kind hx with
    | net _ h => rw [h]; exact keep
    | addLoc _ _ _ h => rw [h]; exact keep
    | link _ _ _ _ _ _ _ _ h => rw [h]; exact keep
    | insert e₁ i at' h1 h2 h3 =>
      intro a ha
      unfold Eco.insertAgent at h3
      split at h3
      · cases Except.ok.inj h3
        have hp := hi'.places a ha
        rcases List.mem_append.1 ha with ha | ha
        · exact keep a (h2 ▸ ha)
        · refine new a ?_ hp
          rw [List.mem_singleton.1 ha]
      · cases h3
    | evolve fuel _ h => exact (evolve_part (site_of hf hi hu0) old h).2.2.1
    | clear ns _ h1 h2 => rw [h2]; simp

end Flee.Parts
