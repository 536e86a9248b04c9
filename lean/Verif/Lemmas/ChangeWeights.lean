import Verif.Lemmas.ChangeOps
import Verif.Spec.Compare
import Mathlib.Tactic.Positivity

/-!
Without negative weights in the settings no weight is negative.
-/

namespace Flee

open Spec

namespace Change

variable {c : Cfg}

theorem map_ok' {ε α β : Type} {f : α → β} {x : Except ε α} {y : β} (h : x.map f = .ok y) : ∃ a, x = .ok a ∧ f a = y := by
  cases x with
  | error e => simp [Except.map] at h
  | ok a => exact ⟨a, rfl, Except.ok.inj h⟩

theorem mapM_mem {ε α β : Type} {f : α → Except ε β} : ∀ {l : List α} {ys : List β}, l.mapM f = .ok ys → ∀ y ∈ ys,
    ∃ x ∈ l, f x = .ok y
  | [], ys, h, y, hy => by
    simp only [List.mapM_nil, Except.pure_eq_ok] at h
    simp [← h] at hy
  | x :: l, ys, h, y, hy => by
    simp only [List.mapM_cons, Except.bind_eq_ok, Except.pure_eq_ok] at h
    obtain ⟨z, hz, zs, hzs, rfl⟩ := h
    rcases List.mem_cons.1 hy with rfl | hy
    · exact ⟨x, by simp, hz⟩
    · obtain ⟨x', hx', h'⟩ := mapM_mem hzs y hy
      exact ⟨x', by simp [hx'], h'⟩

theorem subscript_nonneg {t : Option (List ℚ)} {i : Int} {x : ℚ} (ht : nonNegTable t) (h : subscript t i = .ok x) : 0 ≤ x := by
  cases t with
  | none => simp [subscript] at h
  | some l =>
    simp only [subscript, pyIndex] at h
    generalize (if i < 0 then i + l.length else i) = j at h
    by_cases hj : j < 0
    · simp [hj] at h
    · rw [if_neg hj] at h
      cases hy : l[j.toNat]? with
      | none => simp [hy] at h
      | some y =>
        rw [hy] at h
        cases Except.ok.inj h
        exact ht l rfl _ (List.mem_of_getElem? hy)

theorem forecastSum_nonneg (hc : NonNegWeights c) {level : Int → Except Err Int} {time : Nat} : ∀ {n x : Nat} {s : ℚ},
    forecastSum c.flood level time n x = .ok s → 0 ≤ s
  | 0, _, _, h => by simp only [forecastSum, Except.ok.injEq] at h; exact h ▸ le_refl 0
  | n + 1, x, s, h => by
    simp only [forecastSum, Except.bind_eq_ok] at h
    obtain ⟨t, ht, h⟩ := h
    have h0 : 0 ≤ t := by
      simp only [dayTerm, Except.bind_eq_ok] at ht
      obtain ⟨v, -, ht⟩ := ht
      split at ht
      · simp only [Except.bind_eq_ok, Except.pure_eq_ok] at ht
        obtain ⟨a, ha, b, hb, rfl⟩ := ht
        exact mul_nonneg (subscript_nonneg hc.locs ha) (subscript_nonneg hc.days hb)
      · simp only [Except.pure_eq_ok] at ht
        exact ht ▸ le_refl 0
    generalize (if (time : Int) + x ≥ c.flood.endTime then c.flood.endTime else (time : Int) + x) = day at h
    by_cases hd : day = c.flood.endTime
    · rw [if_pos hd] at h
      cases Except.ok.inj h
      exact h0
    · rw [if_neg hd] at h
      simp only [Except.bind_eq_ok, Except.pure_eq_ok] at h
      obtain ⟨r, hr, rfl⟩ := h
      exact add_nonneg h0 (forecastSum_nonneg hc hr)

theorem active_timescale {f : FloodCfg} {t : Nat} (h : f.active t = true) : (0 : ℚ) ≤ f.timescale := by
  simp only [FloodCfg.active, Bool.and_eq_true, decide_eq_true_eq] at h
  have : (0 : Int) ≤ f.timescale := by omega
  exact_mod_cast this

theorem levelFactor_nonneg (hc : NonNegWeights c) {l : Loc} {x : ℚ} (h : levelFactor c.flood l = .ok x) : 0 ≤ x := by
  unfold levelFactor at h
  split at h
  · exact subscript_nonneg hc.locs h
  · cases Except.ok.inj h; exact zero_le_one

theorem locationScore_nonneg (hc : NonNegWeights c) {t : Nat} {l : Loc} {x : ℚ} (h : locationScore c t l = .ok x) : 0 ≤ x := by
  simp only [locationScore, Except.bind_eq_ok, Except.pure_eq_ok] at h
  obtain ⟨s, hs, z, hz, rfl⟩ := h
  refine mul_nonneg ?_ ?_
  · simp only [baseScore] at hs
    have h1 : (0 : ℚ) ≤ if l.foreign then 1 * c.foreignWeight else 1 := by
      split
      · simpa using hc.foreign
      · exact zero_le_one
    generalize (if l.foreign then 1 * c.foreignWeight else 1) = y at h1 hs
    have h2 : (0 : ℚ) ≤ if l.camp || l.idpcamp then y * c.campWeight else y := by
      split
      · exact mul_nonneg h1 hc.camp
      · exact h1
    generalize (if l.camp || l.idpcamp then y * c.campWeight else y) = y' at h2 hs
    split at hs
    · simp only [Except.bind_eq_ok, Except.pure_eq_ok] at hs
      obtain ⟨d, -, rfl⟩ := hs
      exact mul_nonneg h2 (hc.conflict _)
    · simp only [Except.pure_eq_ok] at hs
      exact hs ▸ h2
  · unfold zoneFactor at hz
    split at hz
    · split at hz
      · cases Except.ok.inj hz; exact zero_le_one
      · simp only [Except.bind_eq_ok, Except.pure_eq_ok] at hz
        obtain ⟨a, ha, b, hb, rfl⟩ := hz
        refine mul_nonneg (subscript_nonneg hc.locs ha) ?_
        unfold scoreForecast at hb
        split at hb
        · rename_i hact
          simp only [Except.bind_eq_ok, Except.pure_eq_ok] at hb
          obtain ⟨s, hs, rfl⟩ := hb
          have := forecastSum_nonneg hc hs
          have := active_timescale hact
          positivity
        · cases Except.ok.inj hb; exact zero_le_one
    · cases Except.ok.inj hz; exact zero_le_one

theorem endPointScore_nonneg (hc : NonNegWeights c) {w : World} {a : Agent} {l : Loc} {x : ℚ} (hl : 0 ≤ l.score)
    (h : c.endPointScore w a l = .ok x) : 0 ≤ x := by
  simp only [Cfg.endPointScore, Except.bind_eq_ok, Except.pure_eq_ok] at h
  obtain ⟨s, hs, d, hd, f, hf, k, hk, rfl⟩ := h
  have h1 : 0 ≤ s := by
    unfold personalScore at hs
    split at hs
    · simp only [Except.bind_eq_ok] at hs
      obtain ⟨y, hy, hs⟩ := hs
      have hy0 : 0 ≤ y := by
        simp only [childScore, Except.bind_eq_ok, Except.pure_eq_ok] at hy
        obtain ⟨_, -, rfl⟩ := hy
        split
        · exact mul_nonneg hl hl
        · exact hl
      split at hs
      · simp only [boyScore, Except.bind_eq_ok] at hs
        obtain ⟨_, -, hs⟩ := hs
        split at hs
        · simp only [Except.bind_eq_ok, Except.pure_eq_ok] at hs
          obtain ⟨_, -, rfl⟩ := hs
          split
          · exact zero_le_one
          · exact hy0
        · simp only [Except.pure_eq_ok] at hs
          exact hs ▸ hy0
      · simp only [Except.pure_eq_ok] at hs
        exact hs ▸ hy0
    · cases Except.ok.inj hs; exact hl
  have h2 : 0 ≤ d := by
    unfold homeFactor at hd
    split at hd
    · simp only [Except.bind_eq_ok] at hd
      obtain ⟨p, -, hd⟩ := hd
      split at hd
      · simp at hd
      · simp only [Except.pure_eq_ok] at hd
        rw [← hd]
        exact div_nonneg zero_le_one (hc.home _ (le_max_left _ _))
    · cases Except.ok.inj hd; exact zero_le_one
  have h3 : 0 ≤ f := by
    unfold floodFactor at hf
    split at hf
    · simp only [Except.bind_eq_ok, Except.pure_eq_ok] at hf
      obtain ⟨y, hy, z, hz, rfl⟩ := hf
      refine mul_nonneg (levelFactor_nonneg hc hy) ?_
      unfold forecastFactor at hz
      split at hz
      · rename_i hact
        simp only [Except.bind_eq_ok, Except.pure_eq_ok, awarenessWeight] at hz
        obtain ⟨m, ⟨_, -, hm⟩, r, hr, rfl⟩ := hz
        have := forecastSum_nonneg hc hr
        have := active_timescale hact
        have := subscript_nonneg hc.aware hm
        positivity
      · cases Except.ok.inj hz; exact zero_le_one
    · cases Except.ok.inj hf; exact zero_le_one
  have h4 : 0 ≤ k := by
    have hp : 0 ≤ popFactor c l := by
      unfold popFactor
      split
      · rename_i hu; exact hc.pop hu _
      · exact zero_le_one
    unfold kindFactor at hk
    (repeat' split at hk) <;> first | (cases Except.ok.inj hk; first | exact zero_le_one | exact hp) | simp at hk
  positivity

theorem capMultiplier_nonneg {l : Loc} {m : ℚ} (h : getCapMultiplier c l = .ok m) : 0 ≤ m := by
  simp only [getCapMultiplier] at h
  (repeat' split at h) <;> first
    | (cases Except.ok.inj h; first | exact zero_le_one | exact le_refl 0 | assumption)
    | simp at h

theorem candidateWeight_nonneg (hc : NonNegWeights c) {s d p x : ℚ} {l : Loc} (hs : 0 ≤ s) (hd : 0 ≤ d) (hp : 0 ≤ p)
    (h : candidateWeight c s l d p = .ok x) : 0 ≤ x := by
  simp only [candidateWeight] at h
  split at h
  · simp at h
  · cases hm : getCapMultiplier c l with
    | error e => simp [hm, Except.map] at h
    | ok m =>
      rw [hm] at h
      cases Except.ok.inj h
      have h0 := hc.dist.nonneg (c.distanceSoftening + d + p) (add_nonneg (add_nonneg hc.distSoft hd) hp)
      exact hc.weight.nonneg _ (mul_nonneg (div_nonneg (add_nonneg hc.weightSoft hs) h0) (capMultiplier_nonneg hm))

/-- No negative scores, weights of routes or lengths. -/
structure NoNeg (w : World) : Prop where
  score : ∀ i, 0 ≤ (w.loc i).score
  routes : ∀ i, ∀ r ∈ (w.loc i).routes, 0 ≤ r.2.1
  dist : ∀ l, 0 ≤ (w.link l).dist

theorem linkWeight_nonneg (hc : NonNegWeights c) {w : World} (hw : NoNeg w) {a : Agent} : ∀ {fuel l : Nat} {prior : ℚ}
    {origin : List String} {step : Int} {r : List ℚ × List (List String)}, 0 ≤ prior →
    linkWeight c w (c.endPointScore w a) fuel l prior origin step = .ok r → ∀ x ∈ r.1, 0 ≤ x
  | 0, _, _, _, _, _, _, h => by simp [linkWeight] at h
  | fuel + 1, l, prior, origin, step, r, hp, h => by
    simp only [linkWeight, Except.bind_eq_ok] at h
    obtain ⟨b, hb, h⟩ := h
    have h0 : ∀ x ∈ b.1, 0 ≤ x := by
      simp only [ownCandidate] at hb
      split at hb
      · cases Except.ok.inj hb; simp
      · simp only [Except.bind_eq_ok, Except.pure_eq_ok] at hb
        obtain ⟨s, hs, y, hy, rfl⟩ := hb
        intro x hx
        rw [List.mem_singleton] at hx
        rw [hx]
        exact candidateWeight_nonneg hc (endPointScore_nonneg hc (hw.score _) hs) (hw.dist l) hp hy
    generalize (if (w.loc (w.link l).endp).marker = true then step - 1 else step) = step' at h
    split at h
    · generalize (w.loc (w.link l).endp).links = ls at h
      clear hb
      induction ls generalizing b with
      | nil =>
        simp only [List.foldlM_nil, Except.pure_eq_ok] at h
        exact h ▸ h0
      | cons k ls ih =>
        simp only [List.foldlM_cons, Except.bind_eq_ok] at h
        obtain ⟨b', hb', h⟩ := h
        refine ih (b := b') ?_ h
        split at hb'
        · cases Except.ok.inj hb'; exact h0
        · obtain ⟨q, hq, rfl⟩ := map_ok' hb'
          intro x hx
          rcases List.mem_append.1 hx with hx | hx
          · exact h0 x hx
          · exact linkWeight_nonneg hc hw (add_nonneg hp (hw.dist l)) hq x hx
    · cases Except.ok.inj h; exact h0

theorem pruneLoop_nonneg {α : Type} [DecidableEq α] {thr : ℚ} : ∀ {n : Nat} {ws : List ℚ} {rs : List α} {i : Nat} {r : List ℚ × List α},
    ws.length - i = n → (∀ x ∈ ws, 0 ≤ x) → pruneLoop thr ws rs i = .ok r → ∀ x ∈ r.1, 0 ≤ x := by
  intro n
  induction n using Nat.strong_induction_on with
  | _ n ih =>
    intro ws rs i r hn hw h
    unfold pruneLoop at h
    split at h
    · rename_i hi
      split at h
      · split at h
        · simp at h
        · refine ih _ ?_ rfl (fun x hx => hw x (List.mem_of_mem_erase hx)) h
          have := List.length_erase_of_mem (List.getElem_mem hi)
          omega
      · exact ih _ (by omega) rfl hw h
    · cases Except.ok.inj h; exact hw

theorem NoNeg.fair (hc : NonNegWeights c) {w : World} (hw : NoNeg w) (X : Change) : X.Fair c w := by
  refine Or.inr fun a i ws rs h => ?_
  unfold routeCandidates at h
  split at h
  · simp only [Except.bind_eq_ok, Except.pure_eq_ok, Prod.mk.injEq] at h
    obtain ⟨ws', h, rfl, -⟩ := h
    intro x hx
    obtain ⟨r, hr, hrx⟩ := mapM_mem h x hx
    simp only [fixedWeight, Except.bind_eq_ok, Except.pure_eq_ok] at hrx
    obtain ⟨s, hs, rfl⟩ := hrx
    exact mul_nonneg (hw.routes i r hr) (endPointScore_nonneg hc (hw.score _) hs)
  · split at h
    · simp at h
    · rename_i ws' rs' hall
      have h0 : ∀ x ∈ ws', 0 ≤ x := by
        unfold allRoutes at hall
        suffices key : ∀ (ls : List Nat) (b : List ℚ × List (List String)), (∀ x ∈ b.1, 0 ≤ x) → ∀ r,
            ls.foldlM (fun acc e => (linkWeight c w (c.endPointScore w a) w.searchFuel e 0 [(w.loc i).name.val] 1).map
              (fun r => (acc.1 ++ r.1, acc.2 ++ r.2))) b = .ok r → ∀ x ∈ r.1, 0 ≤ x from
          key _ _ (by simp) _ hall
        intro ls
        induction ls with
        | nil =>
          intro b hb r h
          simp only [List.foldlM_nil, Except.pure_eq_ok] at h
          exact h ▸ hb
        | cons k ls ih =>
          intro b hb r h
          simp only [List.foldlM_cons, Except.bind_eq_ok] at h
          obtain ⟨b', hb', h⟩ := h
          refine ih b' ?_ r h
          obtain ⟨q, hq, rfl⟩ := map_ok' hb'
          intro x hx
          rcases List.mem_append.1 hx with hx | hx
          · exact hb x hx
          · exact linkWeight_nonneg hc hw (le_refl 0) hq x hx
      unfold pruneRoutes at h
      split at h
      · cases Except.ok.inj h; exact h0
      · split at h
        · simp at h
        · exact pruneLoop_nonneg rfl h0 h

theorem NoNeg.counters {w w' : World} (hw : NoNeg w) (h : Counters w w') : NoNeg w' where
  score i := by
    rw [show (w'.loc i).score = (w.loc i).score from (congrArg Loc.score (h.2.2.1 i) :)]
    exact hw.score i
  routes i := by
    rw [show (w'.loc i).routes = (w.loc i).routes from (congrArg Loc.routes (h.2.2.1 i) :)]
    exact hw.routes i
  dist l := by
    rw [show (w'.link l).dist = (w.link l).dist from (congrArg Lnk.dist (h.2.2.2 l) :)]
    exact hw.dist l

theorem NoNeg.allFair (hc : NonNegWeights c) {w : World} (hw : NoNeg w) (X : Change) : AllFair X c w :=
  fun w' h1 h2 h3 h4 => (hw.counters ⟨h1, h2, h3, h4⟩).fair hc X

theorem NoNeg.setLoc {w : World} (hw : NoNeg w) (i : Nat) {l : Loc} (h1 : 0 ≤ l.score) (h2 : ∀ r ∈ l.routes, 0 ≤ r.2.1) :
    NoNeg (w.setLoc i l) where
  score j := by
    simp only [World.setLoc, upd_apply]
    split
    · exact h1
    · exact hw.score j
  routes j := by
    simp only [World.setLoc, upd_apply]
    split
    · exact h2
    · exact hw.routes j
  dist := hw.dist

theorem NoNeg.setLoc' {w : World} (hw : NoNeg w) (i j : Nat) {l : Loc} (h1 : l.score = (w.loc j).score)
    (h2 : l.routes = (w.loc j).routes) : NoNeg (w.setLoc i l) :=
  hw.setLoc i (h1 ▸ hw.score j) (h2 ▸ hw.routes j)

theorem NoNeg.setLink {w : World} (hw : NoNeg w) (i : Nat) {k : Lnk} (h : 0 ≤ k.dist) : NoNeg (w.setLink i k) where
  score := hw.score
  routes := hw.routes
  dist j := by
    simp only [World.setLink, upd_apply]
    split
    · exact h
    · exact hw.dist j

theorem NoNeg.newLink {w : World} (hw : NoNeg w) {k : Lnk} (h : 0 ≤ k.dist) : NoNeg (w.newLink k) where
  score := hw.score
  routes := hw.routes
  dist j := by
    simp only [World.newLink, upd_apply]
    split
    · exact h
    · exact hw.dist j

theorem NoNeg.foldlM {β : Type} {step : World → β → Except Err World} (h : ∀ w b w', NoNeg w → step w b = .ok w' → NoNeg w') :
    ∀ {l : List β} {w w' : World}, NoNeg w → l.foldlM step w = .ok w' → NoNeg w'
  | [], w, w', hw, hx => by simp only [List.foldlM_nil, Except.pure_eq_ok] at hx; exact hx ▸ hw
  | b :: l, w, w', hw, hx => by
    simp only [List.foldlM_cons, Except.bind_eq_ok] at hx
    obtain ⟨w1, h1, hx⟩ := hx
    exact NoNeg.foldlM h (h w b w1 hw h1) hx

section scores

theorem routeWeight_nonneg {t : RouteTable} (h : ∀ r ∈ t, 0 ≤ r.2.1) (n : String) : 0 ≤ RouteTable.weight t n := by
  unfold RouteTable.weight
  split
  · rename_i r hr
    exact h r (List.mem_of_find?_eq_some hr)
  · exact le_refl 0

theorem put_nonneg {n : String} {v : ℚ × List String × Nat} (hv : 0 ≤ v.1) : ∀ {t : RouteTable}, (∀ r ∈ t, 0 ≤ r.2.1) →
    ∀ r ∈ RouteTable.put t n v, 0 ≤ r.2.1
  | [], _, r, hr => by
    simp only [RouteTable.put, List.mem_singleton] at hr
    exact hr ▸ hv
  | (m, u) :: t, ht, r, hr => by
    unfold RouteTable.put at hr
    split at hr
    · rcases List.mem_cons.1 hr with rfl | hr
      · exact hv
      · exact ht r (by simp [hr])
    · rcases List.mem_cons.1 hr with rfl | hr
      · exact ht (m, u) (by simp)
      · exact put_nonneg hv (fun r hr => ht r (by simp [hr])) r hr

theorem NoNeg.addLocationRoute {w w' : World} {src loc l : Nat} {prior : ℚ} {origin : List String} {major : Bool}
    (hw : NoNeg w) (h : addLocationRoute c w src loc l prior origin major = .ok w') : NoNeg w' := by
  simp only [Flee.addLocationRoute, Except.bind_eq_ok] at h
  obtain ⟨x, -, h⟩ := h
  split at h
  · rename_i hx
    cases Except.ok.inj h
    refine hw.setLoc src (hw.score src) (put_nonneg ?_ (hw.routes src))
    exact le_of_lt (lt_of_le_of_lt (routeWeight_nonneg (hw.routes loc) _) hx)
  · exact Except.ok.inj h ▸ hw

theorem NoNeg.crawlLink {src : Nat} : ∀ {fuel : Nat} {w w' : World} {l : Nat} {prior : ℚ} {origin : List String} {step : Int},
    NoNeg w → crawlLink c src fuel w l prior origin step = .ok w' → NoNeg w'
  | 0, _, _, _, _, _, _, _, h => by simp [Flee.crawlLink] at h
  | fuel + 1, w, w', l, prior, origin, step, hw, h => by
    simp only [Flee.crawlLink, Except.bind_eq_ok] at h
    obtain ⟨w1, h1, h⟩ := h
    have hw1 : NoNeg w1 := by
      unfold addOwnRoute at h1
      split at h1
      · exact Except.ok.inj h1 ▸ hw
      · exact hw.addLocationRoute h1
    split at h
    · refine NoNeg.foldlM (fun w2 k w3 hw2 h3 => ?_) hw1 h
      split at h3
      · exact Except.ok.inj h3 ▸ hw2
      · exact NoNeg.crawlLink hw2 h3
    · exact Except.ok.inj h ▸ hw1

theorem NoNeg.addMajorRoute {w w' : World} {src : Nat} {full : List String} (hw : NoNeg w) : ∀ {rs : List String} {cur : Nat}
    {prior : ℚ}, addMajorRoute c w src full cur prior rs = .ok w' → NoNeg w'
  | [], _, _, h => by simp [Flee.addMajorRoute] at h
  | r :: rs, cur, prior, h => by
    unfold Flee.addMajorRoute at h
    split at h
    · simp at h
    · split at h
      · exact hw.addLocationRoute h
      · exact NoNeg.addMajorRoute hw h

theorem NoNeg.insertMajorRoutesFor {w w' : World} {src hub : Nat} {rt ds : List String} (hw : NoNeg w)
    (h : insertMajorRoutesFor c w src hub rt ds = .ok w') : NoNeg w' := by
  refine NoNeg.foldlM (fun w1 mr w2 hw1 h2 => ?_) hw h
  split at h2
  · simp at h2
  · split at h2
    · exact Except.ok.inj h2 ▸ hw1
    · exact hw1.addMajorRoute h2

theorem NoNeg.generateLocationRoutes {w w' : World} {i : Nat} (hw : NoNeg w) (h : generateLocationRoutes c w i = .ok w') :
    NoNeg w' := by
  unfold Flee.generateLocationRoutes at h
  split at h
  · exact Except.ok.inj h ▸ hw
  · have h0 : NoNeg (w.setLoc i { w.loc i with routes := [] }) := hw.setLoc i (hw.score i) (by simp)
    dsimp only at h
    generalize w.setLoc i { w.loc i with routes := [] } = w0 at h h0
    split at h
    · split at h
      · simp at h
      · cases Except.ok.inj h
        exact ⟨h0.score, h0.routes, h0.dist⟩
    · simp only [Except.bind_eq_ok] at h
      obtain ⟨w1, h1, h⟩ := h
      have hw1 : NoNeg w1 := NoNeg.foldlM (fun _ _ _ hw2 h3 => NoNeg.crawlLink hw2 h3) h0 h1
      simp only [Flee.insertAllMajorRoutes, Except.bind_eq_ok] at h
      obtain ⟨w2, h2, h⟩ := h
      refine NoNeg.foldlM (fun w3 r w4 hw3 h4 => ?_) (hw1.insertMajorRoutesFor h2) h
      split at h4
      · simp at h4
      · exact hw3.insertMajorRoutesFor h4

theorem NoNeg.updateLocationScore (hc : NonNegWeights c) {w w' : World} {t i : Nat} (hw : NoNeg w)
    (h : updateLocationScore c t w i = .ok w') : NoNeg w' := by
  simp only [Flee.updateLocationScore, Except.bind_eq_ok] at h
  obtain ⟨s, hs, h⟩ := h
  have h0 : NoNeg (w.setLoc i { w.loc i with score := s }) := hw.setLoc i (locationScore_nonneg hc hs) (hw.routes i)
  split at h
  · exact h0.generateLocationRoutes h
  · exact Except.ok.inj h ▸ h0

theorem NoNeg.updateScores (hc : NonNegWeights c) {w w' : World} (hw : NoNeg w) (h : updateScores c w = .ok w') : NoNeg w' :=
  NoNeg.foldlM (fun w1 i _ hw1 h1 =>
    NoNeg.updateLocationScore hc (hw1.setLoc (l := { w1.loc i with routes := [] }) i (hw1.score i) (by simp)) h1) hw h

end scores

section ops

theorem NoNeg.foldl {α β : Type} {step : α → β → α} {v : α → World} (h : ∀ a b, NoNeg (v a) → NoNeg (v (step a b))) :
    ∀ (l : List β) {a : α}, NoNeg (v a) → NoNeg (v (l.foldl step a))
  | [], _, ha => ha
  | b :: l, a, ha => NoNeg.foldl (v := v) h l (h a b ha)

theorem NoNeg.removeStep {x : Nat} {e : PyStr} {co : Bool} {acc : World × List Nat × Bool} {l : Nat} (h : NoNeg acc.1) :
    NoNeg (removeStep x e co acc l).1 := by
  simp only [Flee.removeStep]
  split
  · exact h
  · split
    · refine NoNeg.setLoc' (j := x) ?_ x rfl rfl
      refine NoNeg.newLink ?_ ?_
      · exact h.setLink l (h.dist l)
      · exact NoNeg.dist (NoNeg.setLink (k := { acc.1.link l with closed := true }) h l (h.dist l)) l
    · exact h

theorem NoNeg.removeLink1 {w : World} {s e : PyStr} {co : Bool} {r : World × Bool} (hw : NoNeg w)
    (h : removeLink1 w s e co = .ok r) : NoNeg r.1 := by
  simp only [Flee.removeLink1, Except.bind_eq_ok, Except.pure_eq_ok] at h
  obtain ⟨_, -, rfl⟩ := h
  have := NoNeg.foldl (v := fun a : World × List Nat × Bool => a.1)
    (fun a b ha => NoNeg.removeStep (x := w.nameIdx s.val) (e := e) (co := co) (l := b) ha)
    (w.loc (w.nameIdx s.val)).links (a := (w, [], false)) hw
  exact NoNeg.setLoc' (j := w.nameIdx s.val) this _ rfl rfl

theorem NoNeg.reopenStep {x : Nat} {e : PyStr} {acc : World × List Nat × Bool} {l : Nat} (h : NoNeg acc.1) :
    NoNeg (reopenStep x e acc l).1 := by
  simp only [Flee.reopenStep]
  split
  · exact h
  · have h1 : NoNeg (acc.1.setLoc x { acc.1.loc x with links := (acc.1.loc x).links ++ [l] }) := h.setLoc' x x rfl rfl
    exact h1.setLink l (h1.dist l)

theorem NoNeg.reopenLink1 {w : World} {s e : PyStr} {r : World × Bool} (hw : NoNeg w)
    (h : reopenLink1 w s e = .ok r) : NoNeg r.1 := by
  simp only [Flee.reopenLink1, Except.bind_eq_ok, Except.pure_eq_ok] at h
  obtain ⟨_, -, rfl⟩ := h
  have := NoNeg.foldl (v := fun a : World × List Nat × Bool => a.1)
    (fun a b ha => NoNeg.reopenStep (x := w.nameIdx s.val) (e := e) (l := b) ha)
    (w.loc (w.nameIdx s.val)).closedLinks (a := (w, [], false)) hw
  exact NoNeg.setLoc' (j := w.nameIdx s.val) this _ rfl rfl

theorem NoNeg.removeLink {w : World} {s e : PyStr} {tw co : Bool} {r : World × Bool} (hw : NoNeg w)
    (h : removeLink w s e tw co = .ok r) : NoNeg r.1 := by
  unfold Flee.removeLink at h
  split at h <;> exact hw.removeLink1 h

theorem NoNeg.reopenLink {w : World} {s e : PyStr} {tw : Bool} {r : World × Bool} (hw : NoNeg w)
    (h : reopenLink w s e tw = .ok r) : NoNeg r.1 := by
  unfold Flee.reopenLink at h
  split at h <;> exact hw.reopenLink1 h

theorem NoNeg.closeLocLoop {i : Nat} {dir : Dir} : ∀ {fuel : Nat} {w w' : World} {ls : List Nat} {j : Nat}, NoNeg w →
    closeLocLoop i dir fuel w ls j = .ok w' → NoNeg w'
  | 0, _, _, _, _, _, h => by simp [Flee.closeLocLoop] at h
  | fuel + 1, w, w', ls, j, hw, h => by
    unfold Flee.closeLocLoop at h
    split at h
    · exact Except.ok.inj h ▸ hw
    · simp only [Except.bind_eq_ok] at h
      obtain ⟨r, h1, h⟩ := h
      have hr := hw.removeLink h1
      split at h
      · simp only [Except.bind_eq_ok] at h
        obtain ⟨q, h2, h⟩ := h
        exact NoNeg.closeLocLoop (hr.removeLink h2) h
      · exact NoNeg.closeLocLoop hr h

theorem NoNeg.reopenLocLoop {i : Nat} {dir : Dir} : ∀ {fuel : Nat} {w w' : World} {ls : List Nat} {j : Nat}, NoNeg w →
    reopenLocLoop i dir fuel w ls j = .ok w' → NoNeg w'
  | 0, _, _, _, _, _, h => by simp [Flee.reopenLocLoop] at h
  | fuel + 1, w, w', ls, j, hw, h => by
    unfold Flee.reopenLocLoop at h
    split at h
    · exact Except.ok.inj h ▸ hw
    · simp only [Except.bind_eq_ok] at h
      obtain ⟨r, h1, h⟩ := h
      have hr := hw.reopenLink h1
      split at h
      · simp only [Except.bind_eq_ok] at h
        obtain ⟨q, h2, h⟩ := h
        split at h <;> exact NoNeg.reopenLocLoop (hr.reopenLink h2) h
      · exact NoNeg.reopenLocLoop hr h

theorem NoNeg.closeLocation {fuel : Nat} {w : World} {n : String} {tw : Bool} {r : World × Bool} (hw : NoNeg w)
    (h : closeLocation fuel w n tw = .ok r) : NoNeg r.1 := by
  simp only [Flee.closeLocation, Except.bind_eq_ok, Except.pure_eq_ok] at h
  obtain ⟨w1, h1, rfl⟩ := h
  exact NoNeg.foldlM (fun _ _ _ hw h => hw.closeLocLoop h) hw h1

theorem NoNeg.reopenLocation {fuel : Nat} {w : World} {n : String} {tw : Bool} {r : World × Bool} (hw : NoNeg w)
    (h : reopenLocation fuel w n tw = .ok r) : NoNeg r.1 := by
  simp only [Flee.reopenLocation, Except.bind_eq_ok, Except.pure_eq_ok] at h
  obtain ⟨w1, h1, rfl⟩ := h
  exact NoNeg.foldlM (fun _ _ _ hw h => hw.reopenLocLoop h) hw h1

theorem NoNeg.borderLoop {i : Nat} {dest : String} {ro : Bool} : ∀ {fuel : Nat} {w w' : World} {ls : List Nat} {j : Nat},
    NoNeg w → borderLoop i dest ro fuel w ls j = .ok w' → NoNeg w'
  | 0, _, _, _, _, _, h => by simp [Flee.borderLoop] at h
  | fuel + 1, w, w', ls, j, hw, h => by
    unfold Flee.borderLoop at h
    split at h
    · exact Except.ok.inj h ▸ hw
    · split at h
      · split at h
        · simp only [Except.bind_eq_ok] at h
          obtain ⟨q, h2, h⟩ := h
          split at h <;> exact NoNeg.borderLoop (hw.reopenLink h2) h
        · simp only [Except.bind_eq_ok] at h
          obtain ⟨q, h2, h⟩ := h
          split at h <;> exact NoNeg.borderLoop (hw.removeLink h2) h
      · exact NoNeg.borderLoop hw h

theorem NoNeg.changeBorder1 {fuel : Nat} {w w' : World} {s d : String} {ro : Bool} (hw : NoNeg w)
    (h : changeBorder1 fuel w s d ro = .ok w') : NoNeg w' := by
  refine NoNeg.foldlM (fun w1 i w2 hw1 h1 => ?_) hw h
  split at h1
  · exact hw1.borderLoop h1
  · exact Except.ok.inj h1 ▸ hw1

theorem NoNeg.changeBorder {fuel : Nat} {w w' : World} {s d : String} {tw ro : Bool} (hw : NoNeg w)
    (h : changeBorder fuel w s d tw ro = .ok w') : NoNeg w' := by
  simp only [Flee.changeBorder, Except.bind_eq_ok] at h
  obtain ⟨w1, h1, h⟩ := h
  split at h
  · exact (hw.changeBorder1 h1).changeBorder1 h
  · exact Except.ok.inj h ▸ hw.changeBorder1 h1

theorem NoNeg.setForcedRedirection {w w' : World} {n1 n2 : String} {v : Bool} (hw : NoNeg w)
    (h : setForcedRedirection w n1 n2 v = .ok w') : NoNeg w' := by
  simp only [Flee.setForcedRedirection, Except.bind_eq_ok, Except.pure_eq_ok] at h
  obtain ⟨_, -, rfl⟩ := h
  refine NoNeg.foldl (v := id) (fun w1 l hw1 => ?_) _ hw
  dsimp only [id]
  split
  · exact hw1.setLink l (hw1.dist l)
  · exact hw1

theorem NoNeg.linkUp {w w' : World} {n1 n2 : String} {d : ℚ} {fo : Bool} {s : Option ℚ} {k : ℚ} (hw : NoNeg w) (hd : 0 ≤ d)
    (h : linkUp w n1 n2 d fo s k = .ok w') : NoNeg w' := by
  unfold Flee.linkUp at h
  split at h
  · dsimp only at h
    cases Except.ok.inj h
    rename_i x y _ _
    refine NoNeg.setLoc' (j := y) (NoNeg.newLink ?_ hd) y rfl rfl
    exact NoNeg.setLoc' (j := x) (NoNeg.newLink hw hd) x rfl rfl
  · simp at h

theorem NoNeg.openCamp {w w' : World} {n : String} {idp : Bool} (hw : NoNeg w) (h : openCamp c w n idp = .ok w') : NoNeg w' := by
  simp only [Flee.openCamp, Except.bind_eq_ok, Except.pure_eq_ok] at h
  obtain ⟨_, -, rfl⟩ := h
  cases idp <;> exact hw.setLoc' (w.nameIdx n) (w.nameIdx n) rfl rfl

theorem NoNeg.closeCamp {w w' : World} {n : String} (hw : NoNeg w) (h : closeCamp c w n = .ok w') : NoNeg w' := by
  simp only [Flee.closeCamp, Except.bind_eq_ok, Except.pure_eq_ok] at h
  obtain ⟨_, -, rfl⟩ := h
  exact hw.setLoc' (w.nameIdx n) (w.nameIdx n) rfl rfl

theorem NoNeg.changeLocationType {w : World} {n ty : String} (hw : NoNeg w) : NoNeg (changeLocationType c w n ty).1 := by
  unfold Flee.changeLocationType
  by_cases hi : w.nameIdx n < w.nLoc
  · rw [if_pos hi]
    dsimp only
    generalize typeTag ty = t
    cases t <;> exact NoNeg.setLoc' hw _ (w.nameIdx n) rfl rfl
  · rw [if_neg hi]
    exact hw

theorem NoNeg.addConflictLoc {w : World} {n : String} {x : ℚ} {ch : Bool} (hw : NoNeg w) : NoNeg (addConflictLoc c w n x ch) := by
  unfold Flee.addConflictLoc
  split
  · exact hw
  · rename_i i _
    cases ch <;> exact hw.setLoc' i i rfl rfl

theorem NoNeg.removeConflictLoc {w : World} {n : String} {ch : Bool} (hw : NoNeg w) : NoNeg (removeConflictLoc c w n ch) := by
  refine NoNeg.foldl (v := id) (fun w1 i hw1 => ?_) _ hw
  cases ch <;> exact NoNeg.setLoc' (w := w1) hw1 i i rfl rfl

theorem NoNeg.setConflictLoc {w : World} {n : String} {x : ℚ} {ch : Bool} (hw : NoNeg w) : NoNeg (setConflictLoc c w n x ch) := by
  unfold Flee.setConflictLoc
  split
  · exact hw.removeConflictLoc
  · exact hw.addConflictLoc

theorem NoNeg.enact {fuel : Nat} {t : Int} {tw : Bool} {rows : List Closure} {w w' : World} (hw : NoNeg w)
    (h : enactClosures c fuel t tw rows w = .ok w') : NoNeg w' := by
  refine NoNeg.foldlM (fun w1 r w2 hw1 h1 => ?_) hw h
  obtain ⟨w3, h3, h2⟩ := Except.bind_eq_ok.1 h1
  have hw3 : NoNeg w3 := by
    unfold enactStart at h3
    (repeat' split at h3)
    · exact hw1.changeBorder h3
    · obtain ⟨q, hq, rfl⟩ := map_ok' h3; exact hw1.closeLocation hq
    · obtain ⟨q, hq, rfl⟩ := map_ok' h3; exact hw1.removeLink hq
    · exact hw1.closeCamp h3
    · exact hw1.closeCamp h3
    · exact hw1.setForcedRedirection h3
    · exact Except.ok.inj h3 ▸ hw1
    · exact Except.ok.inj h3 ▸ hw1
  unfold enactStop at h2
  (repeat' split at h2)
  · exact hw3.changeBorder h2
  · obtain ⟨q, hq, rfl⟩ := map_ok' h2; exact hw3.reopenLocation hq
  · obtain ⟨q, hq, rfl⟩ := map_ok' h2; exact hw3.reopenLink hq
  · exact hw3.openCamp h2
  · exact hw3.openCamp h2
  · exact hw3.setForcedRedirection h2
  · exact Except.ok.inj h2 ▸ hw3
  · exact Except.ok.inj h2 ▸ hw3

theorem Counters.clear {names : List String} : ∀ {as : List Agent} {w w' : World}, clearLocations names w as = .ok w' → Counters w w'
  | [], w, w', h => by
    unfold Flee.clearLocations at h
    exact Except.ok.inj h ▸ .refl w
  | a :: as, w, w', h => by
    unfold Flee.clearLocations at h
    split at h
    · simp at h
    · split at h
      · exact (Counters.decr w a.place).trans (Counters.clear h)
      · simp at h

theorem Counters.finishAll {fuel : Nat} : ∀ {as as' : List Agent} {w w' : World}, finishAll c fuel w as = .ok (w', as') →
    Counters w w'
  | [], _, _, _, h => by cases Except.ok.inj h; exact .refl _
  | a :: as, as', w, w', h => by
    simp only [Flee.finishAll, Except.bind_eq_ok] at h
    obtain ⟨⟨w1, a1⟩, h1, ⟨w2, as2⟩, h2, h⟩ := h
    cases Except.ok.inj h
    refine Counters.trans ?_ (Counters.finishAll h2)
    unfold finishOne at h1
    split at h1
    · cases Except.ok.inj h1; exact .refl w
    · simp only [Except.bind_eq_ok] at h1
      obtain ⟨q, h3, h4⟩ := h1
      cases Except.ok.inj h4
      exact Counters.finishTravel (a' := q.2) h3

theorem Counters.sinkAll : ∀ (as : List Agent) (w : World), Counters w (sinkAll w as).1
  | [], w => .refl w
  | a :: as, w => by
    refine Counters.trans (w' := (sinkOne w a).1) ?_ (Counters.sinkAll as _)
    unfold sinkOne
    (repeat' split) <;> first | exact .refl w | exact Counters.draw w

theorem NoNeg.evolve (hc : NonNegWeights c) {fuel : Nat} {e e' : Eco} (hw : NoNeg e.w) (h : e.evolve c fuel = .ok e') :
    NoNeg e'.w := by
  simp only [Eco.evolve, Except.bind_eq_ok, Except.pure_eq_ok] at h
  obtain ⟨sw, -, w, h1, r, h2, q, h3, rfl⟩ := h
  have h4 : NoNeg q.1 := ((hw.updateScores hc h1).counters (Counters.evolveAll (as' := r.2) h2)).counters
    (Counters.finishAll (as' := q.2) h3)
  have h5 : NoNeg (if c.campsAreSinks then sinkAll q.1 (q.2.map (updateRecent c)) else (q.1, q.2.map (updateRecent c))).1 := by
    split
    · exact h4.counters (Counters.sinkAll _ _)
    · exact h4
  exact ⟨h5.score, h5.routes, h5.dist⟩

theorem refresh_world {e e' : Eco} (h : Eco.refresh c e = .ok e') : e'.w = e.w := by
  simp only [Eco.refresh, Except.bind_eq_ok, Except.pure_eq_ok] at h
  obtain ⟨_, -, rfl⟩ := h
  rfl

theorem NoNeg.insertAgent {e e' : Eco} {i : Nat} {at' : List (String × String)} (hw : NoNeg e.w)
    (h : e.insertAgent i at' = .ok e') : NoNeg e'.w := by
  unfold Eco.insertAgent at h
  split at h
  · cases Except.ok.inj h
    exact hw.counters (Counters.incr _ _)
  · simp at h

theorem mkLoc_score (a : LocArgs) : (mkLoc c a).score = 1 ∧ (mkLoc c a).routes = [] := by
  unfold mkLoc
  extract_lets l0 l1
  have e1 : l1.score = 1 ∧ l1.routes = [] := by
    dsimp only [l1]
    cases a.ty with
    | none => exact ⟨rfl, rfl⟩
    | some t =>
      dsimp only
      cases typeTag t <;> exact ⟨rfl, rfl⟩
  split
  · exact e1
  · exact e1

theorem NoNeg.exec (hc : NonNegWeights c) {e e' : Eco} {o : Op} (hl : longLinks o) (hw : NoNeg e.w)
    (h : o.exec c e = .ok e') : NoNeg e'.w := by
  cases o <;> simp only [Op.exec] at h
  case addLocation a =>
    simp only [Except.bind_eq_ok] at h
    obtain ⟨w, h1, h⟩ := h
    rw [refresh_world h]
    refine NoNeg.updateLocationScore hc ?_ h1
    exact NoNeg.setLoc (w := { e.w with nLoc := e.w.nLoc + 1 }) ⟨hw.score, hw.routes, hw.dist⟩ e.w.nLoc
      (by rw [(mkLoc_score a).1]; exact zero_le_one) (by rw [(mkLoc_score a).2]; simp)
  case addAgent i at' =>
    unfold Eco.addAgent at h
    split at h
    · refine NoNeg.insertAgent ?_ h
      dsimp only
      split
      · exact hw.setLoc' i i rfl rfl
      · exact hw
    · simp at h
  case insertAgent => exact hw.insertAgent h
  case evolve => exact hw.evolve hc h
  case changeLocationType n ty =>
    have := NoNeg.changeLocationType (c := c) (n := n) (ty := ty) hw
    split at h
    · rename_i w hx
      rw [hx] at this
      exact Except.ok.inj h ▸ this
    · simp at h
  case addConflictZone =>
    split at h
    · exact Except.ok.inj h ▸ hw
    · rw [refresh_world h]; exact hw.addConflictLoc
  case removeConflictZone => rw [refresh_world h]; exact hw.removeConflictLoc
  case setConflictIntensity =>
    split at h
    · exact Except.ok.inj h ▸ hw
    · rw [refresh_world h]; exact hw.setConflictLoc
  case setClosures => exact Except.ok.inj h ▸ hw
  all_goals
    simp only [Except.bind_eq_ok, Except.pure_eq_ok] at h
    obtain ⟨w, h1, rfl⟩ := h
    dsimp only
  case linkUp => exact hw.linkUp hl h1
  case addMajorRoute i route =>
    unfold appendMajorRoute at h1
    split at h1
    · exact Except.ok.inj h1 ▸ hw.setLoc' i i rfl rfl
    · simp at h1
  case removeLink => exact hw.removeLink h1
  case reopenLink => exact hw.reopenLink h1
  case closeLocation => exact hw.closeLocation h1
  case reopenLocation => exact hw.reopenLocation h1
  case closeBorder => exact hw.changeBorder h1
  case reopenBorder => exact hw.changeBorder h1
  case setForcedRedirection => exact hw.setForcedRedirection h1
  case closeCamp => exact hw.closeCamp h1
  case openCamp => exact hw.openCamp h1
  case clearLocations => exact hw.counters (Counters.clear h1)
  case enactClosures => exact hw.enact h1
  case setFloodLevels t time =>
    refine NoNeg.foldlM (fun w1 i w2 hw1 h2 => ?_) hw h1
    simp only [Except.bind_eq_ok, Except.pure_eq_ok] at h2
    obtain ⟨v, -, rfl⟩ := h2
    exact hw1.setLoc' i i rfl rfl
  case setForecasts t =>
    refine NoNeg.foldlM (fun w1 i w2 hw1 h2 => ?_) hw h1
    simp only [Except.bind_eq_ok, Except.pure_eq_ok] at h2
    obtain ⟨v, -, rfl⟩ := h2
    exact hw1.setLoc' i i rfl rfl

end ops

end Change

end Flee
