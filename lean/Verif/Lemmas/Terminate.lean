import Verif.Lemmas.Draws
import Verif.Lemmas.Search
import Verif.Lemmas.Flood

/-!
Time steps that do not run out of fuel.
-/

namespace Flee

open Spec

theorem foldlM_ne {ε α β : Type} {f : β → α → Except ε β} {e : ε} {ms : List α} {acc : β}
    (h : ∀ acc, ∀ m ∈ ms, f acc m ≠ .error e) : ms.foldlM f acc ≠ .error e := fun hx => by
  obtain ⟨acc', m, hm, hf⟩ := foldlM_error hx
  exact h acc' m hm hf

theorem mapM_ne {ε α β : Type} {f : α → Except ε β} {e : ε} (h : ∀ m, f m ≠ .error e) :
    ∀ {ms : List α}, ms.mapM f ≠ .error e
  | [] => by simp [pure, Except.pure]
  | m :: ms => by
    rw [List.mapM_cons]
    exact bind_ne (h m) fun y _ => bind_ne (mapM_ne h) fun z _ => by simp [pure, Except.pure]

/-! ### Scores, spawn weights and fixed routes -/

theorem locationDecay_fuel {c : Cfg} {t : Nat} {l : Loc} : locationDecay c t l ≠ .error .fuel := by
  unfold locationDecay getConflictDecay pyIndex
  dsimp only
  repeat' split
  all_goals simp

theorem spawnWeight_fuel {c : Cfg} {t : Nat} {l : Loc} : spawnWeight c t l ≠ .error .fuel := by
  unfold spawnWeight
  repeat' split
  all_goals first
    | exact bind_ne locationDecay_fuel fun y _ => by simp [pure, Except.pure]
    | simp

theorem crawlScore_fuel {c : Cfg} {l : Loc} : crawlScore c l ≠ .error .fuel := by
  unfold crawlScore
  split
  · exact bind_ne (levelFactor_ne _ _) fun _ _ => by simp [pure, Except.pure]
  · simp

theorem addLocationRoute_fuel {c : Cfg} {w : World} {src loc l : Nat} {p : ℚ} {o : List String} {m : Bool} :
    addLocationRoute c w src loc l p o m ≠ .error .fuel := by
  unfold addLocationRoute
  refine bind_ne ?_ fun y _ => ?_
  · unfold crawlWeight
    refine bind_ne crawlScore_fuel fun s _ => ?_
    dsimp only
    generalize c.distPow _ = d
    by_cases h : d = 0
    · rw [if_pos h]; simp
    · rw [if_neg h]; simp [pure, Except.pure]
  · dsimp only
    split <;> simp

theorem addOwnRoute_fuel {c : Cfg} {w : World} {src l : Nat} {p : ℚ} {o : List String} :
    addOwnRoute c w src l p o ≠ .error .fuel := by
  unfold addOwnRoute
  split
  · simp
  · exact addLocationRoute_fuel

theorem crawlLink_fuel {c : Cfg} {src : Nat} : ∀ {fuel : Nat} {w : World} {l : Nat} {p : ℚ} {o : List String} {s : Int},
    0 < fuel → c.awareness - s < fuel → crawlLink c src fuel w l p o s ≠ .error .fuel
  | 0, _, _, _, _, _, h, _ => absurd h (by simp)
  | fuel + 1, w, l, p, o, s, _, h => by
    unfold crawlLink
    refine bind_ne addOwnRoute_fuel fun w1 _ => ?_
    dsimp only
    split
    · refine foldlM_ne fun acc m _ => ?_
      split
      · simp
      · exact crawlLink_fuel (by omega) (by push_cast at h; omega)
    · simp

theorem addMajorRoute_fuel {c : Cfg} {w : World} {src : Nat} {full : List String} :
    ∀ {rs : List String} {cur : Nat} {p : ℚ}, addMajorRoute c w src full cur p rs ≠ .error .fuel
  | [], cur, p => by simp [addMajorRoute]
  | r :: rs, cur, p => by
    unfold addMajorRoute
    split
    · simp
    · split
      · exact addLocationRoute_fuel
      · exact addMajorRoute_fuel

theorem insertMajorRoutesFor_fuel {c : Cfg} {w : World} {src hub : Nat} {rt ds : List String} :
    insertMajorRoutesFor c w src hub rt ds ≠ .error .fuel := by
  unfold insertMajorRoutesFor
  refine foldlM_ne fun acc m _ => ?_
  split
  · simp
  · split
    · simp [pure, Except.pure]
    · exact addMajorRoute_fuel

theorem generateLocationRoutes_fuel {c : Cfg} {w : World} {i : Nat} : generateLocationRoutes c w i ≠ .error .fuel := by
  unfold generateLocationRoutes
  split
  · simp
  · dsimp only
    split
    · split <;> simp
    · refine bind_ne (foldlM_ne fun acc m _ => crawlLink_fuel (by omega) (by omega)) fun w1 _ => ?_
      unfold insertAllMajorRoutes
      refine bind_ne insertMajorRoutesFor_fuel fun w2 _ => foldlM_ne fun acc m _ => ?_
      split
      · simp
      · exact insertMajorRoutesFor_fuel

theorem updateLocationScore_fuel {c : Cfg} {t : Nat} {w : World} {i : Nat} :
    updateLocationScore c t w i ≠ .error .fuel := by
  unfold updateLocationScore
  refine bind_ne ?_ fun s _ => ?_
  · unfold locationScore
    refine bind_ne ?_ fun b _ => bind_ne ?_ fun z _ => by simp [pure, Except.pure]
    · unfold baseScore
      dsimp only
      split
      · exact bind_ne locationDecay_fuel fun y _ => by simp [pure, Except.pure]
      · simp [pure, Except.pure]
    · unfold zoneFactor
      split
      · split
        · simp
        · refine bind_ne (subscript_ne _ _) fun x _ => bind_ne ?_ fun y _ => by simp [pure, Except.pure]
          unfold scoreForecast
          split
          · exact bind_ne (forecastSum_ne _ (fun _ => by simp [scoreForecastLevel]) _ _ _) fun s _ => by
              simp [pure, Except.pure]
          · simp
      · simp
  · dsimp only
    split
    · exact generateLocationRoutes_fuel
    · simp [pure, Except.pure]

theorem updateScores_fuel {c : Cfg} {w : World} : updateScores c w ≠ .error .fuel :=
  foldlM_ne fun _ _ _ => updateLocationScore_fuel

theorem refreshSpawnWeights_fuel {c : Cfg} {w : World} : refreshSpawnWeights c w ≠ .error .fuel :=
  mapM_ne fun _ => spawnWeight_fuel

/-! ### Decisions -/

theorem getCapMultiplier_fuel {c : Cfg} {l : Loc} : getCapMultiplier c l ≠ .error .fuel := by
  unfold getCapMultiplier
  dsimp only
  repeat' split
  all_goals simp

theorem pruneLoop_fuel {α : Type} [DecidableEq α] {thr : ℚ} : ∀ (n : Nat) {ws : List ℚ} {rs : List α} {i : Nat},
    ws.length - i ≤ n → pruneLoop thr ws rs i ≠ .error .fuel := by
  intro n
  induction n with
  | zero =>
    intro ws rs i h
    unfold pruneLoop
    rw [dif_neg (by omega)]
    simp
  | succ n ih =>
    intro ws rs i h
    unfold pruneLoop
    by_cases hi : i < ws.length
    · rw [dif_pos hi]
      split
      · split
        · simp
        · refine ih ?_
          rw [List.length_erase_of_mem (List.getElem_mem hi)]
          omega
      · exact ih (by omega)
    · rw [dif_neg hi]
      simp

theorem routeCandidates_fuel {c : Cfg} {w : World} {a : Agent} {i : Nat} (hw : WellFormed w) (hi : i < w.nLoc) :
    routeCandidates c w a i ≠ .error .fuel := by
  unfold routeCandidates
  split
  · refine bind_ne (mapM_ne fun r => ?_) fun ws _ => by simp [pure, Except.pure]
    unfold fixedWeight
    exact bind_ne (endPointScore_ne c w a _) fun s _ => by simp [pure, Except.pure]
  · split
    · rename_i e he
      intro h
      rw [Except.error.inj h] at he
      exact allRoutes_fuel (endPointScore_ne c w a) hw hi he
    · unfold pruneRoutes
      repeat' split
      · simp
      · simp
      · exact pruneLoop_fuel _ (le_refl _)

theorem chooseFromWeights_fuel {α : Type} {ws : List ℚ} {rs : List α} {r : ℚ} :
    chooseFromWeights ws rs r ≠ .error .fuel := by
  unfold chooseFromWeights choices
  split
  · simp
  · refine map_ne ?_
    repeat' split
    all_goals simp

theorem selectRoute_fuel {c : Cfg} {w : World} {a : Agent} {i : Nat} (hw : WellFormed w) (hi : i < w.nLoc) :
    selectRoute c w a i ≠ .error .fuel := by
  unfold selectRoute
  split
  · dsimp only
    split <;> simp
  · split
    · rename_i e he
      intro h
      rw [Except.error.inj h] at he
      exact routeCandidates_fuel hw hi he
    · split
      · simp
      · split
        · rename_i e he
          intro h
          rw [Except.error.inj h] at he
          exact chooseFromWeights_fuel he
        · simp
        · split <;> simp

theorem takeNextStep_fuel {c : Cfg} {w : World} {r : Option (List Way)} {i : Nat} :
    takeNextStep c w r i ≠ .error .fuel := by
  unfold takeNextStep
  repeat' split
  all_goals try simp
  refine bind_ne ?_ fun b _ => by split <;> simp [pure, Except.pure]
  unfold destIsFullCamp
  repeat' split
  · simp
  · exact bind_ne getCapMultiplier_fuel fun y _ => by simp [pure, Except.pure]
  · simp [pure, Except.pure]

theorem personEvolve_fuel {c : Cfg} {w : World} {a : Agent} {f : Bool} (hw : WellFormed w) (hp : PlaceOK w a.place) :
    personEvolve c w a f ≠ .error .fuel := by
  unfold personEvolve
  split
  · simp
  · split
    · rename_i i hi
      rw [hi] at hp
      refine bind_ne (moveChance_ne c a _ _ _) fun m _ => ?_
      split
      · unfold tryDepart
        refine bind_ne ?_ fun x _ => bind_ne takeNextStep_fuel fun y _ => ?_
        · unfold planRoute
          split
          · exact selectRoute_fuel (w := w.draw.2) ⟨hw.links, hw.ends, hw.nodup⟩ hp
          · simp
        · obtain ⟨_ | l, rt⟩ := y <;> simp [pure, Except.pure]
      · simp [pure, Except.pure]
    · simp

theorem PlaceOK.coreEq {w w' : World} {p : Place} (h : PlaceOK w p) (g : CoreEq w w') : PlaceOK w' p := by
  revert h
  cases p <;> simp [PlaceOK, g.nLoc, g.nLink]

/-! ### Travel -/

/-- Upper limits on speeds. -/
structure AtMost (c : Cfg) (w : World) (S : ℚ) : Prop where
  move : c.maxMoveSpeed ≤ S
  walk : c.maxWalkSpeed ≤ S
  link : ∀ l < w.nLink, ∀ s, (w.link l).maxMoveSpeed = some s → s ≤ S

theorem AtMost.today {c : Cfg} {w : World} {S : ℚ} (h : AtMost c w S) {l : Nat} (hl : l < w.nLink)
    (a : Agent) (r : ℚ) : todaysSpeed c (w.link l) a r ≤ S := by
  have h0 : (w.link l).maxMoveSpeed.getD c.maxMoveSpeed ≤ S := by
    cases hm : (w.link l).maxMoveSpeed with
    | none => exact h.move
    | some s => exact h.link l hl s hm
  unfold todaysSpeed
  dsimp only
  repeat' split
  all_goals first
    | exact h.walk
    | exact h0

theorem AtMost.coreEq {c : Cfg} {w w' : World} {S : ℚ} (h : AtMost c w S) (g : CoreEq w w') : AtMost c w' S :=
  ⟨h.move, h.walk, fun l hl s hs => h.link l (g.nLink ▸ hl) s (g.speed l ▸ hs)⟩

/-- Everything a day's travel needs to finish. -/
structure Travellable (c : Cfg) (w : World) (S δ : ℚ) : Prop where
  net : WellFormed w
  speed : AtMost c w S
  length : ∀ l < w.nLink, δ ≤ (w.link l).dist
  startp : ∀ l < w.nLink, (w.link l).start < w.nLoc

theorem Travellable.coreEq {c : Cfg} {w w' : World} {S δ : ℚ} (h : Travellable c w S δ) (g : CoreEq w w') :
    Travellable c w' S δ :=
  ⟨h.net.core g, h.speed.coreEq g, fun l hl => by rw [g.dist]; exact h.length l (g.nLink ▸ hl),
    fun l hl => by rw [g.start, g.nLoc]; exact h.startp l (g.nLink ▸ hl)⟩

theorem finishTravel_fuel {c : Cfg} {S δ : ℚ} : ∀ {fuel : Nat} {w : World} {a : Agent}, Travellable c w S δ → TravelOK a →
    PlaceOK w a.place → 1 ≤ fuel → (a.travelling = true → S ≤ a.moved - a.dtol + fuel * δ) → finishTravel c fuel w a ≠ .error .fuel := by
  intro fuel
  induction fuel with
  | zero => intro w a _ _ _ h; omega
  | succ n ih =>
    intro w a hw hok hp _ hS
    unfold finishTravel
    split
    · rename_i ht
      replace hS := hS ht
      split
      · rename_i l hl
        rw [hl] at hp
        dsimp only
        by_cases h1 : a.dtol + todaysSpeed c (w.link l) a w.draw.1 > (w.link l).dist
        · rw [if_pos h1]
          by_cases h2 : (w.link l).closed = true
          · rw [if_pos h2]
            simp
          · rw [if_neg h2]
            set s := todaysSpeed c (w.link l) a w.draw.1 with hs
            have hsS : s ≤ S := hw.speed.today hp a _
            have hlen := hw.length l hp
            split
            · rename_i h3
              rw [decide_eq_true_eq] at h3
              have hcore : CoreEq w (arrival w a l s).1 :=
                ((StepRel.draws w a.place _).trans
                  (handleTravel_rel w.draw.2 (reached a s (w.link l).dist) (.loc (w.link l).endp) false
                    (by simp [reached, hl]) (by simp))).core
              have hpl : PlaceOK w (.loc (w.link l).endp) := hw.net.ends l hp
              refine bind_ne (personEvolve_fuel (hw.net.core hcore) (hpl.coreEq hcore)) ?_
              rintro ⟨w1, a1⟩ h4
              have h4' : personEvolve c (arrival w a l s).1 (arrival w a l s).2 _ = .ok (w1, a1) := h4
              have hok' : TravelOK (arrival w a l s).2 := by simp [TravelOK, arrival, handleTravel]
              have g := personEvolve_step h4' hok' (by simp [arrival, handleTravel])
              obtain ⟨ps, -, hm⟩ := personEvolve_trip h4' hok'
              have hd : a1.dtol = 0 := by
                obtain ⟨i, -, d, rt, ⟨-, rfl⟩ | ⟨m, -, hh⟩⟩ := personEvolve_cases h4' (by simp [arrival, handleTravel])
                · rfl
                · rw [(Prod.mk.inj hh).2]
              have hp1 : PlaceOK w1 a1.place := by
                obtain ⟨i, hi, d, rt, ⟨rfl, rfl⟩ | ⟨m, hm, hh⟩⟩ :=
                  personEvolve_cases h4' (by simp [arrival, handleTravel])
                · exact PlaceOK.coreEq (w' := (arrival w a l s).1) hpl hcore
                · rw [(Prod.mk.inj hh).2]
                  have hi' : (w.link l).endp = i := Place.loc.inj hi
                  show m < w1.nLink
                  rw [g.rel.nLink]
                  exact (hw.net.core hcore).links i (by rw [hcore.nLoc, ← hi']; exact hpl) m hm
              have hmv : a1.moved = a.moved - a.dtol + (w.link l).dist := by
                rw [hm]
                simp only [arrival, handleTravel, reached]
                ring
              push_cast at hS
              have hlt : a.moved - a.dtol + (w.link l).dist < s := by linarith
              have hS' : S ≤ a1.moved - a1.dtol + n * δ := by
                rw [hmv, hd]
                linarith
              refine ih ((hw.coreEq hcore).coreEq g.rel.core) g.ok hp1 ?_ fun _ => hS'
              by_contra hn
              have : n = 0 := by omega
              subst this
              rw [hmv, hd] at hS'
              simp at hS'
              linarith
            · simp
        · rw [if_neg h1]
          simp
      · simp
    · simp

/-! ### Whole time steps -/

theorem evolveAll_fuel {c : Cfg} : ∀ {as : List Agent} {w : World}, WellFormed w → (∀ a ∈ as, TravelOK a) →
    (∀ a ∈ as, PlaceOK w a.place) → evolveAll c w as ≠ .error .fuel
  | [], w, _, _, _ => by simp [evolveAll]
  | a :: as, w, hw, hok, hp => by
    unfold evolveAll
    refine bind_ne ?_ ?_
    · unfold evolveOne
      split
      · simp
      · exact personEvolve_fuel hw (hp a (by simp))
    · rintro ⟨w1, a1⟩ h1
      have hc : CoreEq w w1 := (evolveOne_step h1 (hok a (by simp))).1.core
      refine bind_ne (evolveAll_fuel (hw.core hc) (fun b hb => hok b (by simp [hb]))
        (fun b hb => (hp b (by simp [hb])).coreEq hc)) fun y _ => by simp [pure, Except.pure]

theorem finishAll_fuel {c : Cfg} {S δ : ℚ} {fuel : Nat} (hf : 1 ≤ fuel) : ∀ {as : List Agent} {w : World},
    Travellable c w S δ → (∀ a ∈ as, TravelOK a) → (∀ a ∈ as, PlaceOK w a.place) →
    (∀ a ∈ as, a.travelling = true → S ≤ a.moved - a.dtol + fuel * δ) → finishAll c fuel w as ≠ .error .fuel
  | [], w, _, _, _, _ => by simp [finishAll]
  | a :: as, w, hw, hok, hp, hS => by
    unfold finishAll
    refine bind_ne ?_ ?_
    · unfold finishOne
      split
      · simp
      · exact bind_ne (finishTravel_fuel hw (hok a (by simp)) (hp a (by simp)) hf (hS a (by simp)))
          fun y _ => by simp [pure, Except.pure]
    · rintro ⟨w1, a1⟩ h1
      have hc : CoreEq w w1 := (finishOne_step h1 (hok a (by simp))).1.core
      refine bind_ne (finishAll_fuel hf (hw.coreEq hc) (fun b hb => hok b (by simp [hb]))
        (fun b hb => (hp b (by simp [hb])).coreEq hc) (fun b hb => hS b (by simp [hb])))
        fun y _ => by simp [pure, Except.pure]

theorem evolveOne_way {c : Cfg} {w w' : World} {a a' : Agent} (h : evolveOne c w a = .ok (w', a')) :
    a'.moved = a.moved ∧ (a' = a ∨ a.travelling = false ∧ a'.dtol = 0 ∨ a'.travelling = false) := by
  by_cases hal : ∀ i, a.place ≠ .gone i
  · have h := evolveOne_alive h hal
    cases ht : a.travelling with
    | true => exact ⟨by rw [(personEvolve_travelling h ht).2], .inl (personEvolve_travelling h ht).2⟩
    | false =>
      obtain ⟨i, -, d, rt, ⟨-, rfl⟩ | ⟨m, -, hh⟩⟩ := personEvolve_cases h ht
      · exact ⟨rfl, .inr (.inr ht)⟩
      · rw [(Prod.mk.inj hh).2]
        exact ⟨rfl, .inr (.inl ⟨rfl, rfl⟩)⟩
  · push Not at hal
    obtain ⟨i, hg⟩ := hal
    rw [evolveOne_gone h hg]
    exact ⟨rfl, .inl rfl⟩

/-- A time step finishes when links have length at least `δ` and at most `D`, and speeds are at most `S`. -/
theorem evolve_fuel {c : Cfg} {S δ D : ℚ} {fuel : Nat} {e : Eco} (hi : Inv e.w e.agents)
    (hr : ∀ a ∈ e.agents, Rested e.w a) (hS : AtMost c e.w S) (hδ : ∀ l < e.w.nLink, δ ≤ (e.w.link l).dist)
    (hD : ∀ l < e.w.nLink, (e.w.link l).dist ≤ D) (hD0 : 0 ≤ D) (hf : 1 ≤ fuel) (hfuel : S + D ≤ fuel * δ) :
    e.evolve c fuel ≠ .error .fuel := by
  unfold Eco.evolve
  refine bind_ne refreshSpawnWeights_fuel fun sw _ => bind_ne updateScores_fuel fun w1 h1 => ?_
  have s1 := updateScores_rescored h1
  have i1 : Inv w1 e.agents := hi.same (updateScores_same h1)
  refine bind_ne (evolveAll_fuel i1.wellFormed i1.travel i1.places) ?_
  rintro ⟨w2, as2⟩ h2
  have l1 := evolveAll_step h2 i1.travel
  have i2 := i1.listStep l1
  have hcore := l1.core
  have hT : Travellable c w1 S δ := by
    refine ⟨i1.wellFormed, ⟨hS.move, hS.walk, ?_⟩, ?_, fun l hl => (i1.ends l hl).1⟩
    · rw [s1.nLink, s1.link]; exact hS.link
    · rw [s1.nLink, s1.link]; exact hδ
  refine bind_ne (finishAll_fuel hf (hT.coreEq hcore) i2.travel i2.places ?_) fun x _ => by simp [pure, Except.pure]
  intro b hb ht
  obtain ⟨a, ha, v, v', -, hx⟩ := forall₂_mem_right (evolveAll_get h2 i1.travel) b hb
  obtain ⟨hm, hc⟩ := evolveOne_way hx
  rw [hm, (hr a ha).moved]
  rcases hc with rfl | ⟨-, hd⟩ | hc
  · have hpl := (i1.travel b ha).1.1 ht
    obtain ⟨l, hl⟩ := hpl
    have h3 := (hr b ha).within l hl
    have h4 := hi.places b ha
    rw [hl] at h4
    have := hD l h4
    linarith
  · rw [hd]
    linarith
  · rw [hc] at ht
    cases ht

/-! ### More fuel -/

theorem bind_congr_ne {ε α β : Type} {x x' : Except ε α} {f f' : α → Except ε β} {e : ε} (h : (x >>= f) ≠ .error e)
    (hx : x ≠ .error e → x' = x) (hf : ∀ y, f y ≠ .error e → f' y = f y) : (x' >>= f') = (x >>= f) := by
  cases x with
  | error d =>
    rw [hx (by simpa [bind, Except.bind] using h)]
    rfl
  | ok y =>
    rw [hx (by simp)]
    exact hf y h

theorem finishTravel_more {c : Cfg} : ∀ {n m : Nat} {w : World} {a : Agent}, n ≤ m →
    finishTravel c n w a ≠ .error .fuel → finishTravel c m w a = finishTravel c n w a := by
  intro n
  induction n with
  | zero => intro m w a _ h; exact absurd rfl h
  | succ n ih =>
    intro m w a hnm h
    obtain ⟨k, rfl⟩ : ∃ k, m = k + 1 := ⟨m - 1, by omega⟩
    unfold finishTravel at h ⊢
    by_cases ht : a.travelling = true
    · rw [if_pos ht] at h ⊢
      rw [if_pos ht]
      split
      · rename_i l hl
        rw [hl] at h ⊢
        dsimp only at h ⊢
        by_cases h1 : a.dtol + todaysSpeed c (w.link l) a w.draw.1 > (w.link l).dist
        · rw [if_pos h1] at h ⊢
          rw [if_pos h1]
          by_cases h2 : (w.link l).closed = true
          · rw [if_pos h2, if_pos h2]
          · rw [if_neg h2] at h ⊢
            rw [if_neg h2]
            split
            · rename_i h3
              rw [if_pos h3] at h
              exact bind_congr_ne h (fun _ => rfl) fun y hy => ih (by omega) hy
            · rfl
        · rw [if_neg h1, if_neg h1]
      · rfl
    · rw [if_neg ht, if_neg ht]

theorem finishAll_more {c : Cfg} {n m : Nat} (hnm : n ≤ m) : ∀ {as : List Agent} {w : World},
    finishAll c n w as ≠ .error .fuel → finishAll c m w as = finishAll c n w as
  | [], w, _ => rfl
  | a :: as, w, h => by
    unfold finishAll at h ⊢
    refine bind_congr_ne h (fun hx => ?_) fun y hy => ?_
    · unfold finishOne at hx ⊢
      split
      · rfl
      · rename_i hp
        refine bind_congr_ne ?_ (finishTravel_more hnm) fun y _ => rfl
        revert hx
        split
        · rename_i i hg
          exact absurd hg (hp i)
        · exact id
    · exact bind_congr_ne hy (finishAll_more hnm) fun z _ => rfl

/-- A time step that finishes has the same result with any larger bound on the links completed. -/
theorem evolve_more {c : Cfg} {n m : Nat} {e : Eco} (hnm : n ≤ m) (h : e.evolve c n ≠ .error .fuel) :
    e.evolve c m = e.evolve c n := by
  unfold Eco.evolve at h ⊢
  exact bind_congr_ne h (fun _ => rfl) fun sw h => bind_congr_ne h (fun _ => rfl) fun w1 h =>
    bind_congr_ne h (fun _ => rfl) fun x h => bind_congr_ne h (finishAll_more hnm) fun y _ => rfl

end Flee
