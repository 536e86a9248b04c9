import Verif.Spec.Shunned
import Verif.Lemmas.Steady
import Verif.Lemmas.Still
import Verif.Lemmas.Draws
import Verif.Props.Choice

/-!
Places that settings make worth nothing: nobody chooses them.
-/

namespace Flee

open Spec

variable {c : Cfg}

/-- What holds while agents decide and travel. -/
structure Sharp (c : Cfg) (w : World) : Prop where
  net : WellFormed w
  starts : ∀ i < w.nLoc, ∀ l ∈ (w.loc i).links, (w.link l).start = i
  names : DistinctNames w
  marker : ∀ i < w.nLoc, (w.loc i).marker = false
  length : ∀ l < w.nLink, 0 < (w.link l).dist
  score : ∀ i < w.nLoc, 0 ≤ (w.loc i).score
  zero : ∀ i < w.nLoc, worthless c (w.loc i) → (w.loc i).score = 0
  road : ∀ i < w.nLoc, ¬ worthless c (w.loc i) → (w.loc i).links ≠ [] → ∃ l ∈ (w.loc i).links,
    0 < (w.loc (w.link l).endp).score ∧ (w.loc (w.link l).endp).capacity * c.capacityScaling < 1

theorem worthless_core {l l' : Loc} (h : l'.core = l.core) : worthless c l' ↔ worthless c l := by
  have h1 : l'.foreign = l.foreign := (congrArg Loc.foreign h :)
  have h2 : l'.camp = l.camp := (congrArg Loc.camp h :)
  have h3 : l'.idpcamp = l.idpcamp := (congrArg Loc.idpcamp h :)
  unfold worthless
  rw [h1, h2, h3]

theorem Sharp.core {w w' : World} (h : Sharp c w) (g : CoreEq w w') : Sharp c w' where
  net := h.net.core g
  starts i hi l hl := by rw [g.start]; rw [g.links] at hl; exact h.starts i (g.nLoc ▸ hi) l hl
  names i hi j hj e := by rw [g.name, g.name] at e; exact h.names i (g.nLoc ▸ hi) j (g.nLoc ▸ hj) e
  marker i hi := ((congrArg Loc.marker (g.locCore i) :)).trans (h.marker i (g.nLoc ▸ hi))
  length l hl := by rw [g.dist]; exact h.length l (g.nLink ▸ hl)
  score i hi := by
    rw [show (w'.loc i).score = _ from (congrArg Loc.score (g.locCore i) :)]; exact h.score i (g.nLoc ▸ hi)
  zero i hi hw := by
    rw [show (w'.loc i).score = _ from (congrArg Loc.score (g.locCore i) :)]
    exact h.zero i (g.nLoc ▸ hi) ((worthless_core (g.locCore i)).1 hw)
  road i hi hw hl := by
    rw [g.links] at hl ⊢
    obtain ⟨l, h1, h2, h3⟩ := h.road i (g.nLoc ▸ hi) (fun h => hw ((worthless_core (g.locCore i)).2 h)) hl
    refine ⟨l, h1, ?_⟩
    rw [g.endp, show (w'.loc (w.link l).endp).score = _ from (congrArg Loc.score (g.locCore _) :),
      show (w'.loc (w.link l).endp).capacity = _ from (congrArg Loc.capacity (g.locCore _) :)]
    exact ⟨h2, h3⟩

theorem Keeps.core {w w' : World} {p : Place} (h : Keeps c w p) (g : CoreEq w w') : Keeps c w' p := by
  cases p with
  | loc i => exact fun hw => h ((worthless_core (g.locCore i)).1 hw)
  | gone i => exact fun hw => h ((worthless_core (g.locCore i)).1 hw)
  | link l =>
    refine ⟨fun hw => h.1 ?_, fun hw => h.2 ?_⟩
    · rw [g.start] at hw; exact (worthless_core (g.locCore _)).1 hw
    · rw [g.endp] at hw; exact (worthless_core (g.locCore _)).1 hw

/-- The score of a destination is a positive multiple of its attractiveness. -/
theorem endPointScore_sharp (hc : PlainRules c) (hs : SharpWeights c) {w : World} {a : Agent} (ha : ∀ i, a.place ≠ .gone i)
    (l : Loc) : ∃ k, 0 < k ∧ c.endPointScore w a l = .ok (l.score * k) := by
  have h1 : ∃ x, 0 < x ∧ homeFactor c w a l = .ok x := by
    unfold homeFactor
    split
    · have hp : ∃ p, w.coords a.place = .ok p := by
        cases h : a.place with
        | loc i => exact ⟨_, rfl⟩
        | link l => exact ⟨_, rfl⟩
        | gone i => exact absurd h (ha i)
      obtain ⟨p, hp⟩ := hp
      rw [hp]
      have hne := hc.home _ (le_max_left 1 (c.geoDist (l.y, l.x) p))
      have hnn := hc.weights.home _ (le_max_left 1 (c.geoDist (l.y, l.x) p))
      exact ⟨_, one_div_pos.2 (lt_of_le_of_ne hnn hne.symm), if_neg hne⟩
    · exact ⟨1, one_pos, rfl⟩
  obtain ⟨x, hx0, hx⟩ := h1
  have h2 : kindFactor c l = .ok 1 := by
    unfold kindFactor popFactor
    rw [hc.camps, hc.conflicts, hc.towns, hs.pop]
    split
    · rfl
    · split <;> rfl
  refine ⟨x, hx0, ?_⟩
  simp only [Cfg.endPointScore, personalScore, floodFactor, hc.children, hc.floods, hx, h2]
  simp [bind, Except.bind, pure, Except.pure]

theorem candidateWeight_pos (hc : PlainRules c) (hs : SharpWeights c) {s d x : ℚ} {l : Loc} (hd : 0 < d)
    (h : candidateWeight c s l d 0 = .ok x) : (s = 0 → x = 0) ∧ (0 < s → l.capacity * c.capacityScaling < 1 → 0 < x) := by
  have h0 := hc.weights.dist.pos (c.distanceSoftening + d + 0) (by have := hc.weights.distSoft; linarith)
  simp only [candidateWeight] at h
  rw [if_neg h0.ne', map_ok] at h
  obtain ⟨m, hm, rfl⟩ := h
  rw [hs.soft]
  refine ⟨fun h => by rw [h]; simpa using hs.zero, fun h hcap => ?_⟩
  have hm1 : m = 1 := by
    unfold getCapMultiplier at hm
    dsimp only at hm
    rw [if_pos hcap] at hm
    exact (Except.ok.inj hm).symm
  rw [hm1]
  exact hc.weights.weight.pos _ (by rw [mul_one, zero_add]; exact div_pos h h0)

/-- With awareness level 1 and without markers, candidates are single links. -/
theorem found_single (ha : c.awareness = 1) {w : World} (hm : ∀ i < w.nLoc, (w.loc i).marker = false) (hw : WellFormed w)
    {o : List String} {l : Nat} (hl : l < w.nLink) {u : List Nat} (h : Found c w 1 o l u) : u = [] := by
  cases h with
  | stop => rfl
  | more hg =>
    have h1 := hm _ (hw.ends l hl)
    simp only [stepAt, h1, Bool.false_eq_true, if_false, ha] at hg
    omega

theorem selectRoute_sharp (hc : PlainRules c) (hs : SharpWeights c) (ha : c.awareness = 1)
    (hp : c.pruningThreshold < 1001 / 1000) {w w' : World} (hw : Sharp c w) {a : Agent} {i : Nat} (hi : i < w.nLoc)
    (hag : ∀ i, a.place ≠ .gone i)
    (hk : ¬ worthless c (w.loc i)) (hd : InUnit w.draws) {o : Option (List Way)} (h : selectRoute c w a i = .ok (o, w')) :
    o = none ∨ ∃ l ∈ (w.loc i).links, ¬ worthless c (w.loc (w.link l).endp) ∧
      o = some [.name (w.loc (w.link l).endp).name.val] := by
  unfold selectRoute at h
  rw [if_neg (by omega)] at h
  split at h
  · cases h
  rename_i ws rs hcand
  unfold routeCandidates at hcand
  rw [if_neg (by simp [hc.search])] at hcand
  split at hcand
  · cases hcand
  rename_i ws0 rs0 hall
  unfold pruneRoutes at hcand
  rw [if_pos hp] at hcand
  obtain ⟨rfl, rfl⟩ := Prod.mk.inj (Except.ok.inj hcand)
  split at h
  · cases Except.ok.inj h; exact .inl rfl
  rename_i hne
  right
  obtain ⟨T, hT⟩ := allRoutes_found hw.net hi hall
  have hsingle : ∀ t ∈ T, ∃ l ∈ (w.loc i).links, t = [l] := fun t ht => by
    obtain ⟨l, hl, u, rfl, hf⟩ := (hT.mem t).1 ht
    exact ⟨l, hl, by rw [found_single ha hw.marker hw.net (hw.net.links i hi l hl) hf]⟩
  have hweight : ∀ l ∈ (w.loc i).links, ∀ x, walkWeight c w (c.endPointScore w a) [l] = .ok x →
      0 ≤ x ∧ (worthless c (w.loc (w.link l).endp) → x = 0) ∧ (0 < (w.loc (w.link l).endp).score →
        (w.loc (w.link l).endp).capacity * c.capacityScaling < 1 → 0 < x) := fun l hl x hx => by
    have hlk := hw.net.links i hi l hl
    have hend := hw.net.ends l hlk
    obtain ⟨k, hk0, hs0⟩ := endPointScore_sharp hc hs (w := w) hag (w.loc (w.link l).endp)
    simp only [walkWeight, candidate, hs0, bind, Except.bind] at hx
    obtain ⟨h1, h2⟩ := candidateWeight_pos hc hs (hw.length l hlk) hx
    refine ⟨Change.candidateWeight_nonneg hc.weights (mul_nonneg (hw.score _ hend) hk0.le) (hw.length l hlk).le (le_refl 0) hx,
      fun hz => h1 (by rw [hw.zero _ hend hz, zero_mul]), fun h => h2 (mul_pos h hk0)⟩
  have hlen : ws0.length = (rs0.map List.tail).length := by
    rw [List.length_map, (congrArg List.length hT.routes : rs0.length = _), List.length_map]
    exact hT.weights.length_eq.symm
  have hnn : ∀ x ∈ ws0, 0 ≤ x := fun x hx => by
    obtain ⟨t, ht, hx⟩ := forall₂_mem_right hT.weights x hx
    obtain ⟨l, hl, rfl⟩ := hsingle t ht
    exact (hweight l hl x hx).1
  have hpos : ∃ x ∈ ws0, 0 < x := by
    have hlinks : (w.loc i).links ≠ [] := by
      intro hl
      have hT0 : T = [] := by
        rw [List.eq_nil_iff_forall_not_mem]
        intro t ht
        obtain ⟨l, hl', -⟩ := hsingle t ht
        rw [hl] at hl'; simp at hl'
      have := hT.weights.length_eq
      rw [hT0] at this
      exact hne this.symm
    obtain ⟨l, hl, h1, h2⟩ := hw.road i hi hk hlinks
    have hmem : [l] ∈ T := (hT.mem [l]).2 ⟨l, hl, [], rfl, .stop (hw.marker _ (hw.net.ends l (hw.net.links i hi l hl)))⟩
    obtain ⟨x, hx, hx'⟩ := forall₂_mem_left hT.weights _ hmem
    exact ⟨x, hx, (hweight l hl x hx').2.2 h1 h2⟩
  obtain ⟨k, rt, v, hk1, hk2, hv, hch⟩ := C17_never_zero_weight hlen hnn hpos (hd 0).1 (hd 0).2
  rw [show w.draw.1 = w.draws 0 from rfl, hch] at h
  dsimp only at h
  have hkT : k < T.length := by
    rw [hT.weights.length_eq]; exact (List.getElem?_eq_some_iff.1 hk2).1
  obtain ⟨l, hl, hTk⟩ := hsingle T[k] (List.getElem_mem hkT)
  have hrt : rt = [(w.loc (w.link l).endp).name.val] := by
    have hr := hT.routes
    simp only at hr
    rw [hr] at hk1
    simp only [List.map_map, List.getElem?_map, List.getElem?_eq_getElem hkT, Option.map_some, Function.comp, hTk, stops, Spec.names,
      Option.some.injEq] at hk1
    exact hk1.symm
  have hvl : walkWeight c w (c.endPointScore w a) [l] = .ok v := by
    have := forall₂_get hT.weights (List.getElem?_eq_getElem hkT)
    obtain ⟨x, hx, hx'⟩ := this
    rw [hk2] at hx
    rw [← hTk, Option.some.inj hx]
    exact hx'
  subst hrt
  rw [if_neg (by simp)] at h
  obtain ⟨h1, -⟩ := Prod.mk.inj (Except.ok.inj h)
  refine ⟨l, hl, fun hz => ?_, h1.symm⟩
  have := (hweight l hl v hvl).2.1 hz
  linarith

theorem takeNextStep_sharp {w : World} (hw : Sharp c w) {i : Nat} (hi : i < w.nLoc) {o : Option (List Way)}
    (ho : o = none ∨ ∃ l ∈ (w.loc i).links, ¬ worthless c (w.loc (w.link l).endp) ∧
      o = some [.name (w.loc (w.link l).endp).name.val]) {dest : Option Nat} {rt : List Way}
    (h : takeNextStep c w o i = .ok (dest, rt)) : rt = [] ∧ ∀ m, dest = some m → m ∈ (w.loc i).links ∧
      ¬ worthless c (w.loc (w.link m).endp) := by
  unfold takeNextStep at h
  split at h
  · cases Except.ok.inj h; exact ⟨rfl, by simp⟩
  rcases ho with rfl | ⟨l, hl, hz, rfl⟩
  · cases h
  · dsimp only at h
    split at h
    · cases Except.ok.inj h; exact ⟨rfl, by simp⟩
    · rename_i m hm
      simp only [Except.bind_eq_ok] at h
      obtain ⟨full, -, h⟩ := h
      split at h
      · simp only [Except.pure_eq_ok, Prod.mk.injEq] at h
        exact ⟨h.2.symm, fun m hm => by rw [← h.1] at hm; cases hm⟩
      · simp only [Except.pure_eq_ok, Prod.mk.injEq] at h
        refine ⟨h.2.symm, fun m' hm' => ?_⟩
        rw [← h.1] at hm'
        cases hm'
        have hmem := List.mem_of_find?_eq_some hm
        refine ⟨hmem, ?_⟩
        have hnm : (w.loc (w.link m).endp).name.val = (w.loc (w.link l).endp).name.val := by
          have := List.find?_some hm
          simpa [World.epName] using this
        rw [hw.names _ (hw.net.ends m (hw.net.links i hi m hmem)) _ (hw.net.ends l (hw.net.links i hi l hl)) hnm]
        exact hz

/-! ### Agents -/

/-- The agent is where it should be, and has no plans. -/
structure Safe (c : Cfg) (w : World) (a : Agent) : Prop where
  place : PlaceOK w a.place
  keeps : Keeps c w a.place
  route : a.route = []

theorem Safe.core {w w' : World} {a : Agent} (h : Safe c w a) (g : CoreEq w w') : Safe c w' a :=
  ⟨h.place.coreEq g, Keeps.core h.keeps g, h.route⟩

/-- Settings for which agents choose among neighbouring places by weight. -/
structure Choosy (c : Cfg) : Prop where
  plain : PlainRules c
  sharp : SharpWeights c
  aware : c.awareness = 1
  prune : c.pruningThreshold < 1001 / 1000

theorem inUnit_from {w w' : World} (h : DrawsFrom w w') (hd : InUnit w.draws) : InUnit w'.draws := fun k => by
  obtain ⟨m, hm⟩ := h
  rw [hm]
  exact hd _

theorem personEvolve_safe (hc : Choosy c) {w w' : World} (hw : Sharp c w) (hd : InUnit w.draws) {a a' : Agent}
    (ha : Safe c w a) {f : Bool} (h : personEvolve c w a f = .ok (w', a')) : Safe c w a' := by
  suffices hh : Keeps c w a'.place ∧ a'.route = [] from ⟨personEvolve_place hw.net ha.place h, hh.1, hh.2⟩
  unfold personEvolve at h
  split at h
  · cases Except.ok.inj h; exact ⟨ha.keeps, ha.route⟩
  split at h
  · rename_i i hi
    have hp := ha.place
    have hk := ha.keeps
    rw [hi] at hp hk
    simp only [Except.bind_eq_ok] at h
    obtain ⟨m, -, h⟩ := h
    split at h
    · obtain ⟨route, w1, dest, rt, h1, h2, h3⟩ := tryDepart_eq h
      have hsel := h1
      unfold planRoute at hsel
      rw [if_pos (by simp [ha.route])] at hsel
      obtain ⟨d, rfl⟩ := planRoute_world h1
      have hw1 : Sharp c w.draw.2 := hw.core ⟨rfl, rfl, rfl, fun _ => rfl, fun _ => rfl⟩
      have hro := selectRoute_sharp hc.plain hc.sharp hc.aware hc.prune hw1 (show i < w.draw.2.nLoc from hp)
        (by simp [hi]) hk (inUnit_from (.draw w) hd) hsel
      have hstep := takeNextStep_sharp hw (show i < w.nLoc from hp) hro (show takeNextStep c w route i = _ from h2)
      rcases h3 with ⟨-, -, rfl⟩ | ⟨l, hl, h3⟩
      · exact ⟨ha.keeps, hstep.1⟩
      · rw [(Prod.mk.inj h3).2]
        obtain ⟨g1, g2⟩ := hstep.2 l hl
        refine ⟨⟨?_, g2⟩, hstep.1⟩
        rw [hw.starts i hp l g1]
        exact hk
    · simp only [Except.pure_eq_ok, Prod.mk.injEq] at h
      rw [← h.2]
      exact ⟨ha.keeps, ha.route⟩
  · cases h

theorem finishTravel_safe (hc : Choosy c) : ∀ {fuel : Nat} {w w' : World} {a a' : Agent}, Sharp c w → InUnit w.draws →
    TravelOK a → (∀ l < w.nLink, (w.link l).start < w.nLoc) → Safe c w a → finishTravel c fuel w a = .ok (w', a') → Safe c w a' := by
  intro fuel
  induction fuel with
  | zero => intro w w' a a' _ _ _ _ _ h; cases h
  | succ n ih =>
    intro w w' a a' hw hd hok hst ha h
    unfold finishTravel at h
    split at h
    · split at h
      · rename_i l hl
        have hp := ha.place
        have hk := ha.keeps
        rw [hl] at hp hk
        dsimp only at h
        by_cases h1 : a.dtol + todaysSpeed c (w.link l) a w.draw.1 > (w.link l).dist
        · rw [if_pos h1] at h
          by_cases h2 : (w.link l).closed = true
          · rw [if_pos h2] at h
            rw [← (Prod.mk.inj (Except.ok.inj h)).2]
            exact ⟨hst l hp, hk.1, ha.route⟩
          · rw [if_neg h2] at h
            set s := todaysSpeed c (w.link l) a w.draw.1 with hs
            have hal : Safe c w (arrival w a l s).2 := ⟨hw.net.ends l hp, hk.2, ha.route⟩
            split at h
            · have hcore := arrival_core (w := w) hl s
              simp only [Except.bind_eq_ok] at h
              obtain ⟨⟨w1, a1⟩, h4, h5⟩ := h
              have h4' : personEvolve c (arrival w a l s).1 (arrival w a l s).2 _ = .ok (w1, a1) := h4
              have hok' : TravelOK (arrival w a l s).2 := by simp [TravelOK, arrival, handleTravel]
              have g := personEvolve_step h4' hok' (by simp [arrival, handleTravel])
              have hc1 := hcore.trans g.rel.core
              have hda : InUnit (arrival w a l s).1.draws :=
                inUnit_from ((DrawsFrom.draw w).trans (.of_eq (handleTravel_draws _ _ _ _))) hd
              have hs1 := personEvolve_safe hc (hw.core hcore) hda (hal.core hcore) h4'
              have := ih (hw.core hc1) (inUnit_from (personEvolve_draws h4') hda) g.ok
                (fun m hm => by rw [hc1.start, hc1.nLoc]; exact hst m (hc1.nLink ▸ hm)) (hs1.core g.rel.core) h5
              exact this.core hc1.symm
            · rw [← (Prod.mk.inj (Except.ok.inj h)).2]
              exact ⟨hal.place, hal.keeps, hal.route⟩
        · rw [if_neg h1] at h
          rw [← (Prod.mk.inj (Except.ok.inj h)).2]
          exact ⟨ha.place, ha.keeps, ha.route⟩
      · cases h
    · cases Except.ok.inj h
      exact ha

theorem evolveOne_safe (hc : Choosy c) {w w' : World} (hw : Sharp c w) (hd : InUnit w.draws) {a a' : Agent}
    (ha : Safe c w a) (h : evolveOne c w a = .ok (w', a')) : Safe c w a' := by
  unfold evolveOne at h
  split at h
  · cases Except.ok.inj h; exact ha
  · exact personEvolve_safe hc hw hd ha h

theorem finishOne_safe (hc : Choosy c) {fuel : Nat} {w w' : World} (hw : Sharp c w) (hd : InUnit w.draws) {a a' : Agent}
    (hok : TravelOK a) (hst : ∀ l < w.nLink, (w.link l).start < w.nLoc) (ha : Safe c w a)
    (h : finishOne c fuel w a = .ok (w', a')) : Safe c w a' := by
  unfold finishOne at h
  split at h
  · cases Except.ok.inj h; exact ha
  · simp only [Except.bind_eq_ok, Except.pure_eq_ok, Prod.mk.injEq] at h
    obtain ⟨⟨w1, a1⟩, h1, rfl, rfl⟩ := h
    have := finishTravel_safe hc hw hd hok hst ha h1
    exact ⟨this.place, this.keeps, this.route⟩

theorem evolveAll_safe (hc : Choosy c) : ∀ {as as' : List Agent} {w w' : World}, Sharp c w → InUnit w.draws →
    (∀ a ∈ as, TravelOK a) → (∀ a ∈ as, Safe c w a) → evolveAll c w as = .ok (w', as') → ∀ a ∈ as', Safe c w a
  | [], as', w, w', _, _, _, _, h => by
    simp only [evolveAll, Except.ok.injEq, Prod.mk.injEq] at h
    rw [← h.2]; simp
  | a :: as, as', w, w', hw, hd, hok, hs, h => by
    simp only [evolveAll, Except.bind_eq_ok] at h
    obtain ⟨⟨w1, a1⟩, h1, ⟨w2, as2⟩, h2, h⟩ := h
    simp only [Except.pure_eq_ok, Prod.mk.injEq] at h
    obtain ⟨-, rfl⟩ := h
    have hcore := (evolveOne_step h1 (hok a (by simp))).1.core
    have ih := evolveAll_safe hc (hw.core hcore) (inUnit_from (evolveOne_draws h1) hd) (fun b hb => hok b (by simp [hb]))
      (fun b hb => (hs b (by simp [hb])).core hcore) h2
    intro b hb
    rcases List.mem_cons.1 hb with rfl | hb
    · exact evolveOne_safe hc hw hd (hs a (by simp)) h1
    · exact (ih b hb).core hcore.symm

theorem finishAll_safe (hc : Choosy c) {fuel : Nat} : ∀ {as as' : List Agent} {w w' : World}, Sharp c w → InUnit w.draws →
    (∀ a ∈ as, TravelOK a) → (∀ l < w.nLink, (w.link l).start < w.nLoc) → (∀ a ∈ as, Safe c w a) →
    finishAll c fuel w as = .ok (w', as') → ∀ a ∈ as', Safe c w a
  | [], as', w, w', _, _, _, _, _, h => by
    simp only [finishAll, Except.ok.injEq, Prod.mk.injEq] at h
    rw [← h.2]; simp
  | a :: as, as', w, w', hw, hd, hok, hst, hs, h => by
    simp only [finishAll, Except.bind_eq_ok] at h
    obtain ⟨⟨w1, a1⟩, h1, ⟨w2, as2⟩, h2, h⟩ := h
    simp only [Except.pure_eq_ok, Prod.mk.injEq] at h
    obtain ⟨-, rfl⟩ := h
    have hcore := (finishOne_step h1 (hok a (by simp))).1.core
    have ih := finishAll_safe hc (hw.core hcore) (inUnit_from (finishOne_draws h1) hd) (fun b hb => hok b (by simp [hb]))
      (fun m hm => by rw [hcore.start, hcore.nLoc]; exact hst m (hcore.nLink ▸ hm))
      (fun b hb => (hs b (by simp [hb])).core hcore) h2
    intro b hb
    rcases List.mem_cons.1 hb with rfl | hb
    · exact finishOne_safe hc hw hd (hok a (by simp)) hst (hs a (by simp)) h1
    · exact (ih b hb).core hcore.symm

/-! ### Scores -/

theorem baseScore_worth (hc : PlainRules c) {t : Nat} {l : Loc} {s : ℚ} (h : baseScore c t l = .ok s) :
    (worthless c l → s = 0) ∧ (¬ worthless c l → l.conflict ≤ 0 → 0 < s) := by
  have key : ∀ s0 : ℚ, s0 = (if l.camp || l.idpcamp then (if l.foreign then 1 * c.foreignWeight else 1) * c.campWeight
      else (if l.foreign then 1 * c.foreignWeight else 1)) → (worthless c l → s0 = 0) ∧ (¬ worthless c l → 0 < s0) := by
    rintro s0 rfl
    have hf := hc.weights.foreign
    have hk := hc.weights.camp
    constructor
    · rintro (⟨h1, h2⟩ | ⟨h1, h2⟩)
      · simp [h1, h2]
      · have : (l.camp || l.idpcamp) = true := by simpa using h1
        rw [if_pos this, h2, mul_zero]
    · intro hn
      have h1 : l.foreign = true → 0 < c.foreignWeight := fun h => lt_of_le_of_ne hf fun e => hn (.inl ⟨h, e.symm⟩)
      have h2 : (l.camp || l.idpcamp) = true → 0 < c.campWeight := fun h =>
        lt_of_le_of_ne hk fun e => hn (.inr ⟨by simpa using h, e.symm⟩)
      have h3 : 0 < (if l.foreign = true then 1 * c.foreignWeight else 1 : ℚ) := by
        split
        · rename_i h; rw [one_mul]; exact h1 h
        · exact one_pos
      split
      · rename_i h; exact mul_pos h3 (h2 h)
      · exact h3
  obtain ⟨k1, k2⟩ := key _ rfl
  unfold baseScore at h
  dsimp only at h
  split at h
  · rename_i hcf
    simp only [Except.bind_eq_ok, Except.pure_eq_ok] at h
    obtain ⟨d, -, rfl⟩ := h
    refine ⟨fun hw => ?_, fun _ h => absurd hcf (not_lt.2 h)⟩
    have := k1 hw
    rw [show (if (l.camp || l.idpcamp) = true then (if l.foreign = true then 1 * c.foreignWeight else 1) * c.campWeight
      else if l.foreign = true then 1 * c.foreignWeight else 1) = (0 : ℚ) from this, zero_mul]
  · simp only [Except.pure_eq_ok] at h
    rw [← h]
    exact ⟨k1, fun hw _ => k2 hw⟩

theorem locationScore_worth (hc : PlainRules c) {t : Nat} {l : Loc} (hdry : l.floodZone = false ∨ l.floodLevel = none) {s : ℚ}
    (h : locationScore c t l = .ok s) : (worthless c l → s = 0) ∧ (¬ worthless c l → l.conflict ≤ 0 → 0 < s) := by
  have hz : zoneFactor c t l = .ok 1 := by
    unfold zoneFactor
    rcases hdry with h | h
    · rw [h]; rfl
    · split
      · rw [h]
      · rfl
  simp only [locationScore, hz, Except.bind_eq_ok, Except.pure_eq_ok] at h
  obtain ⟨s0, h0, z, hz1, rfl⟩ := h
  cases Except.ok.inj hz1
  rw [mul_one]
  exact baseScore_worth hc h0

/-- What is asked of a country, in one. -/
structure Country (c : Cfg) (w : World) : Prop where
  ordinary : Ordinary w
  names : DistinctNames w
  marker : ∀ i < w.nLoc, (w.loc i).marker = false
  roads : EasyRoads c w

theorem fixed_worthless {l l' : Loc} (h : l'.fixed = l.fixed) : worthless c l' ↔ worthless c l := by
  have h1 : l'.foreign = l.foreign := (congrArg Loc.foreign h :)
  have h2 : l'.camp = l.camp := (congrArg Loc.camp h :)
  have h3 : l'.idpcamp = l.idpcamp := (congrArg Loc.idpcamp h :)
  unfold worthless
  rw [h1, h2, h3]

theorem rescored_sharp (hc : Choosy c) {w w1 : World} {as : List Agent} (hi : Inv w as) (hw : Country c w)
    (h : updateScores c w = .ok w1) : Sharp c w1 := by
  have s1 := updateScores_rescored h
  have i1 : Inv w1 as := hi.same (updateScores_same h)
  have hlinks : ∀ i, (w1.loc i).links = (w.loc i).links := fun i => (congrArg Loc.links (s1.loc i) :)
  have hsc : ∀ i < w1.nLoc, locationScore c w.time (w.loc i) = .ok (w1.loc i).score := fun i hi' =>
    (updateScores_spec hi.wellFormed h i (s1.nLoc ▸ hi')).1
  refine ⟨i1.wellFormed, fun i hi' l hl => ?_, fun i hi' j hj e => ?_, fun i hi' => ?_, fun l hl => ?_, fun i hi' => ?_,
    fun i hi' hz => ?_, fun i hi' hn hl => ?_⟩
  · exact (i1.lnk i hi' l (.inl hl)).2
  · rw [show (w1.loc i).name = _ from (congrArg Loc.name (s1.loc i) :), show (w1.loc j).name = _ from (congrArg Loc.name (s1.loc j) :)] at e
    exact hw.names i (s1.nLoc ▸ hi') j (s1.nLoc ▸ hj) e
  · exact ((congrArg Loc.marker (s1.loc i) :)).trans (hw.marker i (s1.nLoc ▸ hi'))
  · rw [s1.link]; exact hw.ordinary.length l (s1.nLink ▸ hl)
  · exact Change.locationScore_nonneg hc.plain.weights (hsc i hi')
  · exact (locationScore_worth hc.plain (hw.ordinary.dry i (s1.nLoc ▸ hi')) (hsc i hi')).1 ((fixed_worthless (s1.loc i)).1 hz)
  · rw [hlinks] at hl ⊢
    obtain ⟨l, h1, h2, h3, h4⟩ := hw.roads i (s1.nLoc ▸ hi') (fun h => hn ((fixed_worthless (s1.loc i)).2 h)) hl
    have hend := (hi.ends l (hi.lnk i (s1.nLoc ▸ hi') l (.inl h1)).1).2
    refine ⟨l, h1, ?_⟩
    rw [s1.link, show (w1.loc (w.link l).endp).capacity = _ from (congrArg Loc.capacity (s1.loc _) :)]
    exact ⟨(locationScore_worth hc.plain (hw.ordinary.dry _ hend) (hsc _ (s1.nLoc.symm ▸ hend))).2 h2 h3, h4⟩

/-- A time step keeps agents where they should be. -/
theorem evolve_safe (hc : Choosy c) {e e' : Eco} {fuel : Nat} (hi : Inv e.w e.agents) (hw : Country c e.w) (hd : InUnit e.w.draws)
    (hs : ∀ a ∈ e.agents, Keeps c e.w a.place ∧ a.route = []) (h : e.evolve c fuel = .ok e') :
    Country c e'.w ∧ InUnit e'.w.draws ∧ ∀ a ∈ e'.agents, Keeps c e'.w a.place ∧ a.route = [] := by
  obtain ⟨w1, -, s1, g, -⟩ := evolve_days hi h
  have hloc : ∀ i, (e'.w.loc i).core = (w1.loc i).core := fun i => g.locCore i
  have hwl : ∀ i, worthless c (e'.w.loc i) ↔ worthless c (e.w.loc i) := fun i =>
    (worthless_core (g.locCore i)).trans (fixed_worthless (s1.loc i))
  have hend : ∀ l, (e'.w.link l).endp = (e.w.link l).endp := fun l => by
    rw [g.endp]; show (w1.link l).endp = _; rw [s1.link]
  have hn : e'.w.nLoc = e.w.nLoc := g.nLoc.trans s1.nLoc
  have hname : ∀ i, (e'.w.loc i).name = (e.w.loc i).name := fun i =>
    ((congrArg Loc.name (g.locCore i) :)).trans (congrArg Loc.name (s1.loc i) :)
  have hlinks : ∀ i, (e'.w.loc i).links = (e.w.loc i).links := fun i => by
    rw [g.links]; exact (congrArg Loc.links (s1.loc i) :)
  refine ⟨⟨(evolve_conditions hi h).1 hw.ordinary, fun i hi j hj e => ?_, fun i hi => ?_, fun i hi hz hl => ?_⟩,
    inUnit_from (evolve_draws h) hd, ?_⟩
  · rw [hname, hname] at e; exact hw.names i (hn ▸ hi) j (hn ▸ hj) e
  · exact (((congrArg Loc.marker (g.locCore i) :)).trans (congrArg Loc.marker (s1.loc i) :)).trans (hw.marker i (hn ▸ hi))
  · rw [hlinks] at hl ⊢
    obtain ⟨l, h1, h2, h3, h4⟩ := hw.roads i (hn ▸ hi) (fun h => hz ((hwl i).2 h)) hl
    refine ⟨l, h1, ?_⟩
    rw [hend, hwl, show (e'.w.loc (e.w.link l).endp).conflict = _ from ((congrArg Loc.conflict (g.locCore _) :)).trans (congrArg Loc.conflict (s1.loc _) :),
      show (e'.w.loc (e.w.link l).endp).capacity = _ from ((congrArg Loc.capacity (g.locCore _) :)).trans (congrArg Loc.capacity (s1.loc _) :)]
    exact ⟨h2, h3, h4⟩
  obtain ⟨sw, w1', w2, as2, w3, as3, -, h2, h3, h4, r, hr, rfl⟩ := evolve_decomp h
  have i1 : Inv w1' e.agents := hi.same (updateScores_same h2)
  have hs1 : Sharp c w1' := rescored_sharp hc hi hw h2
  have r1 := updateScores_rescored h2
  have hd1 : InUnit w1'.draws := inUnit_from (updateScores_draws h2) hd
  have hsafe : ∀ a ∈ e.agents, Safe c w1' a := fun a ha => by
    refine ⟨i1.places a ha, ?_, (hs a ha).2⟩
    have := (hs a ha).1
    cases hp : a.place with
    | loc i => rw [hp] at this; exact fun hz => this ((fixed_worthless (r1.loc i)).1 hz)
    | gone i => rw [hp] at this; exact fun hz => this ((fixed_worthless (r1.loc i)).1 hz)
    | link l =>
      rw [hp] at this
      refine ⟨fun hz => this.1 ?_, fun hz => this.2 ?_⟩
      · rw [r1.link] at hz; exact (fixed_worthless (r1.loc _)).1 hz
      · rw [r1.link] at hz; exact (fixed_worthless (r1.loc _)).1 hz
  have hsafe2 := evolveAll_safe hc hs1 hd1 i1.travel hsafe h3
  have l1 := evolveAll_step h3 i1.travel
  have i2 := i1.listStep l1
  have hsafe3 := finishAll_safe hc (hs1.core l1.core) (inUnit_from (evolveAll_drawsFrom h3) hd1) i2.travel
    (fun l hl => (i2.ends l hl).1) (fun a ha => (hsafe2 a ha).core l1.core) h4
  have l2 := finishAll_step h4 i2.travel
  have hsafe4 : ∀ a ∈ as3.map (updateRecent c), Safe c w3 a := fun a ha => by
    obtain ⟨b, hb, rfl⟩ := List.mem_map.1 ha
    have := (hsafe3 b hb).core l2.core
    exact ⟨this.place, this.keeps, this.route⟩
  intro a ha
  split at hr
  · obtain ⟨⟨d, hd'⟩, hsk⟩ := sinkAll_spec (as3.map (updateRecent c)) w3
    rw [hr] at ha ⊢
    obtain ⟨b, hb, hbs⟩ := forall₂_mem_right hsk a ha
    have hb' := hsafe4 b hb
    have hc3 : CoreEq w3 { (sinkAll w3 (as3.map (updateRecent c))).1 with time := (sinkAll w3 (as3.map (updateRecent c))).1.time } := by
      rw [hd']; exact ⟨rfl, rfl, rfl, fun _ => rfl, fun _ => rfl⟩
    rcases hbs with rfl | ⟨i, -, h5, -, rfl⟩
    · have := hb'.core hc3
      exact ⟨this.keeps, this.route⟩
    · have := Keeps.core hb'.keeps hc3
      rw [h5] at this
      exact ⟨this, hb'.route⟩
  · rw [hr] at ha ⊢
    have := hsafe4 a ha
    exact ⟨this.keeps, this.route⟩

theorem still_worthless {l l' : Loc} (h : l'.still = l.still) : worthless c l' ↔ worthless c l := by
  have h1 : l'.foreign = l.foreign := (congrArg Loc.foreign h :)
  have h2 : l'.camp = l.camp := (congrArg Loc.camp h :)
  have h3 : l'.idpcamp = l.idpcamp := (congrArg Loc.idpcamp h :)
  unfold worthless
  rw [h1, h2, h3]

/-- A new agent in a place that is worth something. -/
theorem addAgent_safe {e e' : Eco} {i : Nat} {at' : List (String × String)} (hw : Country c e.w) (hz : ¬ worthless c (e.w.loc i))
    (hs : ∀ a ∈ e.agents, Keeps c e.w a.place ∧ a.route = []) (h : e.addAgent c i at' = .ok e') :
    Country c e'.w ∧ ¬ worthless c (e'.w.loc i) ∧ ∀ a ∈ e'.agents, Keeps c e'.w a.place ∧ a.route = [] := by
  obtain ⟨hn, hk, hl, hst, ha⟩ := addAgent_still h
  have hwl : ∀ j, worthless c (e'.w.loc j) ↔ worthless c (e.w.loc j) := fun j => still_worthless (hst j)
  have hname : ∀ j, (e'.w.loc j).name = (e.w.loc j).name := fun j => (congrArg Loc.name (hst j) :)
  have hlinks : ∀ j, (e'.w.loc j).links = (e.w.loc j).links := fun j => (congrArg Loc.links (hst j) :)
  have hcf : ∀ j, (e'.w.loc j).conflict = (e.w.loc j).conflict := fun j => (congrArg Loc.conflict (hst j) :)
  have hcap : ∀ j, (e'.w.loc j).capacity = (e.w.loc j).capacity := fun j => (congrArg Loc.capacity (hst j) :)
  refine ⟨⟨⟨?_, ?_⟩, ?_, ?_, ?_⟩, fun h => hz ((hwl i).1 h), ?_⟩
  · rw [hk, hl]; exact hw.ordinary.length
  · intro j hj
    rw [show (e'.w.loc j).floodZone = _ from (congrArg Loc.floodZone (hst j) :),
      show (e'.w.loc j).floodLevel = _ from (congrArg Loc.floodLevel (hst j) :)]
    exact hw.ordinary.dry j (hn ▸ hj)
  · intro j hj k hk e
    rw [hname, hname] at e
    exact hw.names j (hn ▸ hj) k (hn ▸ hk) e
  · intro j hj
    exact ((congrArg Loc.marker (hst j) :)).trans (hw.marker j (hn ▸ hj))
  · intro j hj hjz hne
    rw [hlinks] at hne ⊢
    obtain ⟨l, h1, h2, h3, h4⟩ := hw.roads j (hn ▸ hj) (fun h => hjz ((hwl j).2 h)) hne
    refine ⟨l, h1, ?_⟩
    rw [hl, hwl, hcf, hcap]
    exact ⟨h2, h3, h4⟩
  · intro a hm
    rw [ha, List.mem_append, List.mem_singleton] at hm
    rcases hm with hm | rfl
    · refine ⟨?_, (hs a hm).2⟩
      have := (hs a hm).1
      cases hp : a.place with
      | loc j => rw [hp] at this; exact fun hz => this ((hwl j).1 hz)
      | gone j => rw [hp] at this; exact fun hz => this ((hwl j).1 hz)
      | link l =>
        rw [hp] at this
        refine ⟨fun hz => this.1 ?_, fun hz => this.2 ?_⟩
        · rw [hl] at hz; exact (hwl _).1 hz
        · rw [hl] at hz; exact (hwl _).1 hz
    · exact ⟨fun hx => hz ((hwl i).1 hx), rfl⟩

end Flee
