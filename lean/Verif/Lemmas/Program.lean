import Verif.Lemmas.Nature
import Verif.Lemmas.Spawn
import Verif.Lemmas.Schedule
import Verif.Lemmas.Input
import Verif.Lemmas.Kinds
import Verif.Spec.Program

/-!
Facts about the simulation program.
-/

namespace Flee

open Spec

/-- Operations of one kind lead from one state to another. -/
def Through (P : Op → Prop) (c : Cfg) (e e' : Eco) : Prop := ∃ ops, (∀ op ∈ ops, P op) ∧ Executes c ops e e'

variable {P Q : Op → Prop} {c : Cfg}

theorem Through.refl (e : Eco) : Through P c e e := ⟨[], by simp, rfl⟩

theorem Through.trans {e e₁ e₂ : Eco} : Through P c e e₁ → Through P c e₁ e₂ → Through P c e e₂
  | ⟨ops, h, g⟩, ⟨ops', h', g'⟩ => ⟨ops ++ ops', fun op hm => (List.mem_append.1 hm).elim (h op) (h' op), executes_append g g'⟩

theorem Through.one {e e' : Eco} {op : Op} (hp : P op) (h : op.exec c e = .ok e') : Through P c e e' :=
  ⟨[op], by simpa, e', h, rfl⟩

theorem Through.mono {e e' : Eco} (h : ∀ op, P op → Q op) : Through P c e e' → Through Q c e e'
  | ⟨ops, hp, g⟩ => ⟨ops, fun op hm => h op (hp op hm), g⟩

/-- What every operation keeps, all keep. -/
theorem Through.keeps {e e' : Eco} {I : Eco → Prop} (hI : ∀ op e e', P op → I e → op.exec c e = .ok e' → I e') (h0 : I e) :
    Through P c e e' → I e'
  | ⟨ops, hp, g⟩ => by
    induction ops generalizing e with
    | nil =>
      rw [show e' = e from g]
      exact h0
    | cons op ops ih =>
      obtain ⟨e1, h1, g⟩ := g
      exact ih (hI op e e1 (hp op (by simp)) h0 h1) (fun o ho => hp o (by simp [ho])) g

theorem foldlM_through {α : Type} {f : Eco → α → Except Err Eco} (hf : ∀ e a e', f e a = .ok e' → Through P c e e') :
    ∀ {l : List α} {e e' : Eco}, l.foldlM f e = .ok e' → Through P c e e'
  | [], e, e', h => by
    simp only [List.foldlM_nil, Except.pure_eq_ok] at h
    exact h ▸ .refl _
  | a :: l, e, e', h => by
    simp only [List.foldlM_cons, Except.bind_eq_ok] at h
    obtain ⟨e1, h1, h2⟩ := h
    exact (hf _ _ _ h1).trans (foldlM_through hf h2)

/-- Operations of the daily schedule. -/
def Scheduled : Op → Prop
  | .changeLocationType .. => True
  | .addConflictZone .. => True
  | .setConflictIntensity .. => True
  | .setFloodLevels .. => True
  | .setForecasts .. => True
  | _ => False

/-- Operations of the daily schedule but changes of type. -/
def ScheduledZone : Op → Prop
  | .addConflictZone .. => True
  | .setConflictIntensity .. => True
  | .setFloodLevels .. => True
  | .setForecasts .. => True
  | _ => False

/-- Operations that build the network. -/
def Building : Op → Prop
  | .addLocation .. => True
  | .linkUp .. => True
  | .addMajorRoute .. => True
  | .setClosures .. => True
  | _ => False

/-- Operations that place agents. -/
def Placing : Op → Prop
  | .addAgent .. => True
  | .insertAgent .. => True
  | _ => False

theorem ScheduledZone.all {op : Op} (h : ScheduledZone op) : Scheduled op := by
  cases op <;> simp_all [Scheduled, ScheduledZone]

theorem startConflict_through {name : String} {table : List ℚ} {time : Nat} {v : ℚ} {e e' : Eco}
    (h : startConflict c name table time v e = .ok e') : Through ScheduledZone c e e' := by
  unfold startConflict at h
  split at h
  · split at h
    · exact .one (by trivial) h
    · simp only [Except.bind_eq_ok] at h
      obtain ⟨p, _, h⟩ := h
      split at h
      · exact .one (by trivial) h
      · rw [Except.ok.inj h]; exact .refl _
  · rw [Except.ok.inj h]; exact .refl _

theorem stopConflict_through {name : String} {table : List ℚ} {time : Nat} {v : ℚ} {e e' : Eco}
    (h : stopConflict c name table time v e = .ok e') : Through ScheduledZone c e e' := by
  unfold stopConflict at h
  split at h
  · split at h
    · rw [Except.ok.inj h]; exact .refl _
    · simp only [Except.bind_eq_ok] at h
      obtain ⟨p, _, h⟩ := h
      split at h
      · exact .one (by trivial) h
      · rw [Except.ok.inj h]; exact .refl _
  · rw [Except.ok.inj h]; exact .refl _

theorem applyConflict_through {time : Nat} {e e' : Eco} {column : String × List ℚ}
    (h : applyConflict c time e column = .ok e') : Through ScheduledZone c e e' := by
  unfold applyConflict at h
  split at h
  · simp at h
  · simp only [Except.bind_eq_ok] at h
    obtain ⟨v, _, e1, h1, h2⟩ := h
    exact (startConflict_through h1).trans (stopConflict_through h2)

theorem applyListed_through {n : Numerals} {time : Nat} : ∀ {rows : List Row} {e e' : Eco},
    applyListed c n time e rows = .ok e' → Through ScheduledZone c e e'
  | [], e, e', h => by
    simp only [applyListed, Except.ok.injEq] at h
    exact h ▸ .refl _
  | r :: rows, e, e', h => by
    unfold applyListed at h
    simp only [Except.bind_eq_ok] at h
    obtain ⟨y, _, h⟩ := h
    split at h
    · simp only [Except.bind_eq_ok] at h
      obtain ⟨_, _, d, _, h⟩ := h
      split at h
      · simp only [Except.bind_eq_ok] at h
        obtain ⟨name, _, _, _, _, _, e1, h1, h2⟩ := h
        exact (Through.one (by trivial) h1).trans (applyListed_through h2)
      · exact applyListed_through h
    · exact applyListed_through h

theorem zones_through {n : Numerals} {file : Bool} {g : Geo} {time : Nat} {e e' : Eco}
    (h : (if c.flood.enabled then applyFloods c g time e else applyConflicts c n file g time e) = .ok e') :
    Through ScheduledZone c e e' := by
  split at h
  · simp only [applyFloods, Except.bind_eq_ok] at h
    obtain ⟨levels, _, e1, h1, h2⟩ := h
    refine (Through.one (by trivial) h1).trans ?_
    split at h2
    · simp only [Except.bind_eq_ok] at h2
      obtain ⟨forecasts, _, h2⟩ := h2
      exact .one (by trivial) h2
    · simp only [Except.pure_eq_ok] at h2
      exact h2 ▸ .refl _
  · unfold applyConflicts at h
    split at h
    · exact foldlM_through (fun _ _ _ => applyConflict_through) h
    · exact applyListed_through h

theorem applyChanges_through {n : Numerals} {time : Nat} : ∀ {rows : List Row} {e e' : Eco},
    applyChanges c n time e rows = .ok e' → Through Scheduled c e e'
  | [], e, e', h => by
    simp only [applyChanges, Except.ok.injEq] at h
    exact h ▸ .refl _
  | r :: rows, e, e', h => by
    simp only [applyChanges, Except.bind_eq_ok] at h
    obtain ⟨s, _, d, _, h⟩ := h
    split at h
    · simp only [Except.bind_eq_ok] at h
      obtain ⟨name, _, ty, _, e1, h1, h2⟩ := h
      exact (Through.one (by trivial) h1).trans (applyChanges_through h2)
    · exact applyChanges_through h

theorem addNewConflictZones_through {n : Numerals} {file : Bool} {g : Geo} {time : Nat} {e e' : Eco}
    (h : addNewConflictZones c n file g time e = .ok e') : Through Scheduled c e e' := by
  simp only [addNewConflictZones, Except.bind_eq_ok] at h
  obtain ⟨e1, h1, h2⟩ := h
  exact (applyChanges_through h1).trans ((zones_through h2).mono fun _ => ScheduledZone.all)

/-! ### Building the network and placing agents -/

theorem appendIf_through {e e' : Eco} {i : Nat} {cond : Bool} {route : List String} (h : appendIf c e i cond route = .ok e') :
    Through Building c e e' := by
  unfold appendIf at h
  split at h
  · exact .one (by trivial) h
  · rw [Except.ok.inj h]; exact .refl _

theorem storeMajor_through {i : Nat} {name : String} : ∀ {rows : List Row} {e e' : Eco},
    storeMajor c i name e rows = .ok e' → Through Building c e e'
  | [], e, e', h => by
    simp only [storeMajor, Except.ok.injEq] at h
    exact h ▸ .refl _
  | r :: rows, e, e', h => by
    simp only [storeMajor, Except.bind_eq_ok] at h
    obtain ⟨_, _, e1, h1, _, _, e2, h2, h3⟩ := h
    exact ((appendIf_through h1).trans (appendIf_through h2)).trans (storeMajor_through h3)

theorem storeLocations_through {n : Numerals} {scale : ℚ} {g : Geo} {home : String} {ids : Nat → Nat} :
    ∀ {rows : List Row} {k : Nat} {e e' : Eco}, storeLocations c n scale g home ids k e rows = .ok e' →
    Through Building c e e'
  | [], k, e, e', h => by
    simp only [storeLocations, Except.ok.injEq] at h
    exact h ▸ .refl _
  | r :: rows, k, e, e', h => by
    simp only [storeLocations, Except.bind_eq_ok] at h
    obtain ⟨e1, h1, _, _, e2, h2, h3⟩ := h
    simp only [storeLocation, Except.bind_eq_ok] at h1
    obtain ⟨_, _, _, _, _, _, _, _, _, _, _, _, _, _, _, _, _, _, _, _, _, _, _, _, _, _, _, _, h1⟩ := h1
    exact ((Through.one (by trivial) h1).trans (storeMajor_through h2)).trans (storeLocations_through h3)

theorem callLinkUp_through {n : Numerals} {e e' : Eco} {a b d : String} {forced : Bool} {speed walk : Option ℚ}
    (h : callLinkUp c n e a b d forced speed walk = .ok e') : Through Building c e e' := by
  simp only [callLinkUp, Except.bind_eq_ok] at h
  obtain ⟨_, _, h⟩ := h
  exact .one (by trivial) h

theorem storeLink_through {n : Numerals} {cols : Option (List String)} {e e' : Eco} {r : Row}
    (h : storeLink c n cols e r = .ok e') : Through Building c e e' := by
  simp only [storeLink, Except.bind_eq_ok] at h
  obtain ⟨_, _, _, _, _, _, _, _, _, _, _, _, h⟩ := h
  split at h
  · simp only [Except.bind_eq_ok, storeFlagged] at h
    obtain ⟨_, _, h⟩ := h
    split at h
    · simp only [Except.bind_eq_ok] at h
      obtain ⟨e1, h1, h2⟩ := h
      exact (callLinkUp_through h1).trans (callLinkUp_through h2)
    · split at h <;> exact callLinkUp_through h
  · exact callLinkUp_through h

theorem storeGeo_through {n : Numerals} {scale : ℚ} {ids : Nat → Nat} {cids : Nat → Nat × Nat} {g : Geo}
    {e e' : Eco} (h : storeGeo c n scale ids cids g e = .ok e') : Through Building c e e' := by
  unfold storeGeo at h
  split at h
  · simp at h
  · simp only [Except.bind_eq_ok] at h
    obtain ⟨_, _, e1, h1, e2, h2, _, _, h3⟩ := h
    exact ((storeLocations_through h1).trans (foldlM_through (fun _ _ _ => storeLink_through) h2)).trans
      (.one (by trivial) h3)

theorem addAtEach_through {attrs : Attrs} : ∀ {is : List Nat} {e e' : Eco}, addAtEach c attrs e is = .ok e' →
    Through Placing c e e'
  | [], e, e', h => by
    simp only [addAtEach, Except.ok.injEq] at h
    exact h ▸ .refl _
  | i :: is, e, e', h => by
    simp only [addAtEach, Except.bind_eq_ok] at h
    obtain ⟨e1, h1, h2⟩ := h
    exact (Through.one (op := .addAgent i attrs) (by trivial) h1).trans (addAtEach_through h2)

theorem readAgents_through : ∀ {rows : List Row} {i : Nat} {hs : Option (List String)} {e e' : Eco},
    readAgents c i hs e rows = .ok e' → Through Placing c e e'
  | [], i, hs, e, e', h => by
    simp only [readAgents, Except.ok.injEq] at h
    exact h ▸ .refl _
  | r :: rows, i, hs, e, e', h => by
    simp only [readAgents, Except.bind_eq_ok] at h
    obtain ⟨b, _, h⟩ := h
    split at h
    · exact readAgents_through h
    · split at h
      · exact readAgents_through h
      · simp only [Except.bind_eq_ok] at h
        obtain ⟨_, _, _, _, e1, h1, h2⟩ := h
        exact (addAtEach_through h1).trans (readAgents_through h2)

theorem startAgents_through {p : Script} {e e' : Eco} (h : startAgents p e = .ok e') : Through Placing p.c e e' := by
  unfold startAgents at h
  split at h
  · exact readAgents_through h
  · rw [Except.ok.inj h]; exact .refl _

theorem startCamp_through {p : Script} {e e' : Eco} {camp : String × Nat} (h : startCamp p e camp = .ok e') :
    Through Placing c e e' := by
  unfold startCamp at h
  split at h
  · rw [Except.ok.inj h]; exact .refl _
  · simp only [Except.bind_eq_ok, addInitial] at h
    obtain ⟨k, _, h⟩ := h
    split at h
    · rw [Except.ok.inj h]; exact .refl _
    · simp only [Except.bind_eq_ok] at h
      obtain ⟨m, _, h⟩ := h
      exact foldlM_through (fun e a e' h => .one (op := .insertAgent camp.2 (p.r.attrs e.agents.length camp.2)) (by trivial) h) h

theorem setup_parts {p : Script} {draws : Nat → ℚ} {e : Eco} {camps : List (String × Nat)}
    (h : p.setup draws = .ok (e, camps)) : ∃ e₁ e₂, storeGeo p.c p.n p.scale p.ids p.cids p.geo (Eco.empty draws) = .ok e₁ ∧
      startAgents p e₁ = .ok e₂ ∧ campList e₂.w = .ok camps ∧ camps.foldlM (startCamp p) e₂ = .ok e := by
  simp only [Script.setup, Except.bind_eq_ok, Except.pure_eq_ok, Prod.mk.injEq] at h
  obtain ⟨e1, h1, e2, h2, cs, h3, e3, h4, rfl, rfl⟩ := h
  exact ⟨e1, e2, h1, h2, h3, h4⟩

theorem spawnAt_through {attrs : Nat → Nat → Attrs} : ∀ {is : List Nat} {e e' : Eco},
    spawnAt c attrs e is = .ok e' → Through Placing c e e'
  | [], e, e', h => by
    simp only [spawnAt, Except.ok.injEq] at h
    exact h ▸ .refl _
  | i :: is, e, e', h => by
    simp only [spawnAt, Except.bind_eq_ok] at h
    obtain ⟨e1, h1, h2⟩ := h
    exact (Through.one (op := .addAgent i (attrs e.agents.length i)) (by trivial) h1).trans (spawnAt_through h2)

theorem spawnEach_through {attrs : Nat → Nat → Attrs} {count : Nat → Loc → Except Err Int} : ∀ {is : List Nat} {e e' : Eco} {m : Int},
    spawnEach c attrs count e is = .ok (m, e') → Through Placing c e e'
  | [], e, e', m, h => by
    simp only [spawnEach, Except.ok.injEq, Prod.mk.injEq] at h
    exact h.2 ▸ .refl _
  | i :: is, e, e', m, h => by
    simp only [spawnEach, Except.bind_eq_ok] at h
    obtain ⟨x, hx, e1, h1, ⟨m', e2⟩, h2, h3⟩ := h
    simp only [Except.pure_eq_ok, Prod.mk.injEq] at h3
    obtain ⟨_, rfl⟩ := h3
    exact (spawnAt_through h1).trans (spawnEach_through h2)

/-! ### What operations keep -/

theorem scheduled_agents {op : Op} {e e' : Eco} (hp : Scheduled op) (h : op.exec c e = .ok e') : e'.agents = e.agents := by
  cases op <;> simp only [Scheduled] at hp <;> simp only [Op.exec] at h
  case changeLocationType =>
    split at h
    · rw [← Except.ok.inj h]
    · simp at h
  case addConflictZone =>
    split at h
    · rw [← Except.ok.inj h]
    · exact (refresh_eq h).2
  case setConflictIntensity =>
    split at h
    · rw [← Except.ok.inj h]
    · exact (refresh_eq h).2
  all_goals
    simp only [Except.bind_eq_ok, Except.pure_eq_ok] at h
    obtain ⟨_, _, rfl⟩ := h
    rfl

theorem building_agents {op : Op} {e e' : Eco} (hp : Building op) (h : op.exec c e = .ok e') : e'.agents = e.agents := by
  cases op <;> simp only [Building] at hp <;> simp only [Op.exec] at h
  case addLocation =>
    simp only [Except.bind_eq_ok] at h
    obtain ⟨_, _, h⟩ := h
    exact (refresh_eq h).2
  case setClosures => rw [← Except.ok.inj h]
  all_goals
    simp only [Except.bind_eq_ok, Except.pure_eq_ok] at h
    obtain ⟨_, _, rfl⟩ := h
    rfl

/-- Operations that add no place and do not move the clock. -/
def Timeless (op : Op) : Prop := (∀ fuel, op ≠ .evolve fuel) ∧ ∀ a, op ≠ .addLocation a

theorem Through.develops {e e' : Eco} (hP : ∀ op, P op → Timeless op) (hi : Inv e.w e.agents) (h : Through P c e e') :
    Inv e'.w e'.agents ∧ Develops true c e.w e'.w := by
  refine Through.keeps (I := fun x => Inv x.w x.agents ∧ Develops true c e.w x.w) ?_ ⟨hi, .refl ..⟩ h
  rintro op e1 e2 hp ⟨i1, d1⟩ h1
  refine ⟨exec_inv i1 h1, ?_⟩
  cases exec_devel i1 h1 with
  | changes d => exact d1.trans ⟨d.nLoc, d.time, fun i => (d.loc i).war⟩
  | step f ho => exact absurd ho ((hP op hp).1 f)
  | created a ho => exact absurd ho ((hP op hp).2 a)

theorem Scheduled.timeless {op : Op} (h : Scheduled op) : Timeless op := by
  constructor <;> intro x hx <;> subst hx <;> exact h

theorem Placing.timeless {op : Op} (h : Placing op) : Timeless op := by
  constructor <;> intro x hx <;> subst hx <;> exact h

theorem Through.sameAgents {e e' : Eco} (h : Through Scheduled c e e') : e'.agents = e.agents :=
  h.keeps (I := fun x => x.agents = e.agents) (fun _ _ _ hp hx h => (scheduled_agents hp h).trans hx) rfl

/-- Locations apart from population and counters of agents. -/
def Loc.lasting (l : Loc) : Loc := { l with pop := 0, numAgentsSpawned := 0, numAgents := 0 }

/-- The effect of placing agents: more agents, all at home. -/
structure Placed (e e' : Eco) : Prop where
  nLoc : e'.w.nLoc = e.w.nLoc
  weights : e'.spawnWeights = e.spawnWeights
  loc : ∀ i, (e'.w.loc i).lasting = (e.w.loc i).lasting
  agents : ∃ as, e'.agents = e.agents ++ as

theorem Placed.refl (e : Eco) : Placed e e := ⟨rfl, rfl, fun _ => rfl, [], by simp⟩

theorem Placed.trans {e₁ e₂ e₃ : Eco} (h : Placed e₁ e₂) (g : Placed e₂ e₃) : Placed e₁ e₃ where
  nLoc := g.nLoc.trans h.nLoc
  weights := g.weights.trans h.weights
  loc i := (g.loc i).trans (h.loc i)
  agents := by
    obtain ⟨as, h⟩ := h.agents
    obtain ⟨bs, g⟩ := g.agents
    exact ⟨as ++ bs, by rw [g, h, List.append_assoc]⟩

theorem insertAgent_placed {e e' : Eco} {i : Nat} {attrs : Attrs} (h : e.insertAgent i attrs = .ok e') : Placed e e' := by
  unfold Eco.insertAgent at h
  split at h
  · rw [← Except.ok.inj h]
    refine ⟨rfl, rfl, fun j => ?_, _, rfl⟩
    by_cases hj : j = i
    · subst hj
      simp [World.incr, World.setLoc, Loc.lasting]
    · simp [World.incr, World.setLoc, hj]
  · simp at h

theorem placing_placed {op : Op} {e e' : Eco} (hp : Placing op) (h : op.exec c e = .ok e') : Placed e e' := by
  cases op <;> simp only [Placing] at hp <;> simp only [Op.exec] at h
  case addAgent i attrs =>
    unfold Eco.addAgent at h
    split at h
    · dsimp only at h
      refine Placed.trans ?_ (insertAgent_placed h)
      refine ⟨?_, rfl, fun j => ?_, [], by simp⟩
      · dsimp only
        split <;> rfl
      · dsimp only
        split
        · by_cases hj : j = i
          · subst hj
            simp [World.setLoc, Loc.lasting]
          · simp [World.setLoc, hj]
        · rfl
    · simp at h
  case insertAgent => exact insertAgent_placed h

theorem Through.placed {e e' : Eco} (h : Through Placing c e e') : Placed e e' :=
  h.keeps (I := fun x => Placed e x) (fun _ _ _ hp hx h => hx.trans (placing_placed hp h)) (.refl _)

/-! ### Lowering capacities -/

theorem lowerCapacities_same (d : DataTable) (w : World) : SameNet w (lowerCapacities d w) ∧
    (lowerCapacities d w).link = w.link ∧
    ∀ i, { (lowerCapacities d w).loc i with capacity := 0 } = { w.loc i with capacity := 0 } := by
  unfold lowerCapacities
  generalize List.range w.nLoc = is
  induction is generalizing w with
  | nil => exact ⟨.refl _, rfl, fun _ => rfl⟩
  | cons i is ih =>
    rw [List.foldl_cons]
    split
    · obtain ⟨h1, h2, h3⟩ := ih (w.setLoc i { w.loc i with capacity := (w.loc i).capacity - d.day0pops (w.loc i).name.val })
      refine ⟨SameNet.trans (SameNet.setLoc w i { w.loc i with capacity := (w.loc i).capacity - d.day0pops (w.loc i).name.val }
        rfl rfl rfl rfl rfl) h1, h2, fun j => (h3 j).trans ?_⟩
      by_cases hj : j = i
      · subst hj
        simp [World.setLoc]
      · simp [World.setLoc, hj]
    · exact ih w

/-! ### Spawning -/

/-- What spawning of a day does to the ecosystem. -/
structure Spawned (e e' : Eco) : Prop where
  nLoc : e'.w.nLoc = e.w.nLoc
  time : e'.w.time = e.w.time
  inv : Inv e.w e.agents → Inv e'.w e'.agents
  pop : Inv e.w e.agents → (∀ i < e.w.nLoc, 0 ≤ (e.w.loc i).pop) → ∀ i < e'.w.nLoc, 0 ≤ (e'.w.loc i).pop
  loc : ∀ i, { (e'.w.loc i).lasting with capacity := 0 } = { (e.w.loc i).lasting with capacity := 0 }
  agents : ∃ as, e'.agents = e.agents ++ as

theorem Changes.popNonneg {war : Bool} {t : Nat} {l l' : Loc} (h : Changes war c t l l') (h0 : 0 ≤ l.pop) : 0 ≤ l'.pop := by
  induction h with
  | refl => exact h0
  | tail _ h ih =>
    cases h with
    | spawn =>
      dsimp only
      split <;> omega
    | camp idp => cases idp <;> exact ih
    | retype tag => cases tag <;> exact ih
    | close | fight | stamp | calm | settle => exact ih

theorem Develops.popNonneg {war : Bool} {w w' : World} (h : Develops war c w w') (h0 : ∀ i < w.nLoc, 0 ≤ (w.loc i).pop) :
    ∀ i < w'.nLoc, 0 ≤ (w'.loc i).pop := fun i hi =>
  Changes.popNonneg (l := (w.loc i).nature) (l' := (w'.loc i).nature) (h.loc i) (h0 i (h.nLoc ▸ hi))

theorem placing_time {op : Op} {e e' : Eco} (hp : Placing op) (h : op.exec c e = .ok e') : e'.w.time = e.w.time := by
  cases op <;> simp only [Placing] at hp <;> simp only [Op.exec] at h
  case addAgent i attrs =>
    by_cases hi : i < e.w.nLoc
    · obtain ⟨l, hl⟩ := addAgent_eq (c := c) attrs hi
      rw [hl] at h
      rw [← Except.ok.inj h]
      rfl
    · simp [Eco.addAgent, hi] at h
  case insertAgent i attrs =>
    unfold Eco.insertAgent at h
    split at h
    · rw [← Except.ok.inj h]; rfl
    · simp at h

theorem Through.spawned {e e' : Eco} (h : Through Placing c e e') : Spawned e e' where
  nLoc := h.placed.nLoc
  time := h.keeps (I := fun x => x.w.time = e.w.time) (fun _ _ _ hp hx h => (placing_time hp h).trans hx) rfl
  inv hi := (h.develops (fun _ => Placing.timeless) hi).1
  pop hi h0 := (h.develops (fun _ => Placing.timeless) hi).2.popNonneg h0
  loc i := (congrArg (fun l : Loc => { l with capacity := 0 }) (h.placed.loc i) :)
  agents := h.placed.agents

theorem spawnDaily_spawned {r : SpawnCfg} {t n : Int} {s s' : Sim} (h : spawnDaily c r t s = .ok (n, s')) :
    Spawned s.e s'.e := by
  unfold spawnDaily at h
  split at h
  · simp only [Except.bind_eq_ok] at h
    obtain ⟨⟨m, e⟩, h1, h2⟩ := h
    simp only [Except.pure_eq_ok, Prod.mk.injEq] at h2
    obtain ⟨_, rfl⟩ := h2
    exact (spawnEach_through h1).spawned
  · split at h
    · simp only [Except.bind_eq_ok] at h
      obtain ⟨⟨m, e⟩, h1, h2⟩ := h
      simp only [Except.pure_eq_ok, Prod.mk.injEq] at h2
      obtain ⟨_, rfl⟩ := h2
      exact (spawnEach_through h1).spawned
    · simp only [Except.bind_eq_ok] at h
      obtain ⟨⟨x, d1⟩, h1, ⟨y, d2⟩, h2, locs, h3, e, h4, h5⟩ := h
      simp only [Except.pure_eq_ok, Prod.mk.injEq] at h5
      obtain ⟨hn, rfl⟩ := h5
      simp only at h4 ⊢
      have g := (spawnAt_through h4).spawned
      obtain ⟨l1, _, l3⟩ := lowerCapacities_same d2 s.e.w
      split at g
      · refine ⟨g.nLoc.trans l1.nLoc, g.time.trans l1.time, fun hi => g.inv (hi.same l1), fun hi h0 => g.pop (hi.same l1) fun i hi => ?_,
          fun i => (g.loc i).trans ?_, g.agents⟩
        · rw [show ((lowerCapacities d2 s.e.w).loc i).pop = (s.e.w.loc i).pop from (congrArg Loc.pop (l3 i) :)]
          exact h0 i (l1.nLoc ▸ hi)
        · exact (congrArg Loc.lasting (l3 i) :)
      · exact g

/-! ### The days -/

theorem day_parts {p : Script} {t : Nat} {s s' : Sim} {z : Eco} {k : Int} (h : p.day t s = .ok (z, k, s')) :
    ∃ s₁ e₂ e₃ e₄, addNewConflictZones p.c p.n p.file p.geo t s.e = .ok z ∧ spawnDaily p.c p.r t { s with e := z } = .ok (k, s₁) ∧
      Eco.refresh p.c s₁.e = .ok e₂ ∧ (Op.enactClosures p.fuel t true).exec p.c e₂ = .ok e₃ ∧
      (Op.evolve p.fuel).exec p.c e₃ = .ok e₄ ∧ s' = { s₁ with e := e₄ } := by
  simp only [Script.day, Except.bind_eq_ok] at h
  obtain ⟨z', h1, ⟨k', s1⟩, h2, e2, h3, e3, h4, e4, h5, h6⟩ := h
  simp only [Except.pure_eq_ok, Prod.mk.injEq] at h6
  obtain ⟨rfl, rfl, rfl⟩ := h6
  exact ⟨s1, e2, e3, e4, h1, h2, h3, h4, h5, rfl⟩

/-- What a day does to the ecosystem. -/
structure DayDone (p : Script) (t : Nat) (s s' : Sim) (z : Eco) : Prop where
  nLoc : s'.e.w.nLoc = s.e.w.nLoc
  time : s'.e.w.time = s.e.w.time + 1
  inv : Inv s'.e.w s'.e.agents
  zinv : Inv z.w z.agents
  zLoc : z.w.nLoc = s.e.w.nLoc
  zAgents : z.agents = s.e.agents
  pop : (∀ i < s.e.w.nLoc, 0 ≤ (s.e.w.loc i).pop) → (∀ i < z.w.nLoc, 0 ≤ (z.w.loc i).pop) ∧
    ∀ i < s'.e.w.nLoc, 0 ≤ (s'.e.w.loc i).pop

theorem day_done {p : Script} {t : Nat} {s s' : Sim} {z : Eco} {k : Int} (hi : Inv s.e.w s.e.agents)
    (h : p.day t s = .ok (z, k, s')) : DayDone p t s s' z := by
  obtain ⟨s1, e2, e3, e4, h1, h2, h3, h4, h5, rfl⟩ := day_parts h
  have t1 := addNewConflictZones_through h1
  obtain ⟨zi, zd⟩ := t1.develops (fun _ => Scheduled.timeless) hi
  have sp := spawnDaily_spawned h2
  have i1 := sp.inv zi
  obtain ⟨r1, r2⟩ := refresh_eq h3
  have i2 : Inv e2.w e2.agents := by rw [r1, r2]; exact i1
  have i3 := exec_inv i2 h4
  have i4 := exec_inv i3 h5
  have n2 : e2.w.nLoc = s.e.w.nLoc := by rw [r1, sp.nLoc]; exact zd.nLoc
  have m2 : e2.w.time = s.e.w.time := by rw [r1, sp.time]; exact zd.time
  cases exec_devel i2 h4 with
  | step f ho => simp at ho
  | created a ho => simp at ho
  | changes d3 =>
  cases exec_devel i3 h5 with
  | changes _ ho => exact absurd rfl (ho _)
  | created a ho => simp at ho
  | step f _ n4 m4 c4 =>
  refine ⟨n4.trans (d3.nLoc.trans n2), by rw [m4, d3.time, m2], i4, zi, zd.nLoc, t1.sameAgents, fun h0 => ?_⟩
  have p1 := zd.popNonneg h0
  refine ⟨p1, fun i hi => ?_⟩
  have p2 : ∀ i < e2.w.nLoc, 0 ≤ (e2.w.loc i).pop := by rw [r1]; exact sp.pop zi p1
  have p3 := d3.popNonneg p2 i (by rw [← n4]; exact hi)
  rwa [show (e4.w.loc i).pop = (e3.w.loc i).pop from (congrArg Loc.pop (c4 i) :)]

theorem days_get {p : Script} {camps : List (String × Nat)} : ∀ {n t : Nat} {s : Sim} {ds : List Day},
    p.days camps n t s = .ok ds → ds.length = n ∧ ∀ j d, ds[j]? = some d →
      p.day (t + j) (stateBefore s ds j) = .ok (d.zones, d.spawned, d.state) ∧ p.report camps (t + j) d.state = .ok d.row
  | 0, t, s, ds, h => by
    simp only [Script.days, Except.ok.injEq] at h
    subst h
    simp
  | n + 1, t, s, ds, h => by
    simp only [Script.days, Except.bind_eq_ok] at h
    obtain ⟨⟨z, k, s1⟩, h1, row, h2, rest, h3, h4⟩ := h
    simp only [Except.pure_eq_ok] at h4
    subst h4
    obtain ⟨hl, hg⟩ := days_get h3
    refine ⟨by simp [hl], fun j d hj => ?_⟩
    cases j with
    | zero =>
      simp only [List.getElem?_cons_zero, Option.some.injEq] at hj
      subst hj
      exact ⟨h1, h2⟩
    | succ j =>
      simp only [List.getElem?_cons_succ] at hj
      obtain ⟨g1, g2⟩ := hg j d hj
      rw [show t + (j + 1) = t + 1 + j by omega]
      refine ⟨?_, g2⟩
      rw [← g1]
      congr 1
      cases j with
      | zero => simp [stateBefore]
      | succ j => 
        simp only [stateBefore, List.getElem?_cons_succ]
        obtain ⟨x, hx⟩ : ∃ x, rest[j]? = some x := by
          have := (List.getElem?_eq_some_iff.1 hj).1
          exact ⟨rest[j], List.getElem?_eq_getElem (by omega)⟩
        rw [hx]

/-- The parts of a run. -/
theorem run_parts {p : Script} {draws sd : Nat → ℚ} {s₀ : Sim} {camps : List (String × Nat)} {ds : List Day}
    (h : p.run draws sd = .ok (s₀, camps, ds)) : ∃ e, p.setup draws = .ok (e, camps) ∧
      s₀ = { e := e, d := p.data, draws := sd } ∧ p.days camps p.endTime 0 s₀ = .ok ds := by
  simp only [Script.run, Except.bind_eq_ok] at h
  obtain ⟨⟨e, cs⟩, h1, ds', h2, h3⟩ := h
  simp only [Except.pure_eq_ok, Prod.mk.injEq] at h3
  obtain ⟨rfl, rfl, rfl⟩ := h3
  exact ⟨e, h1, rfl, h2⟩

theorem run_get {p : Script} {draws sd : Nat → ℚ} {s₀ : Sim} {camps : List (String × Nat)} {ds : List Day}
    (h : p.run draws sd = .ok (s₀, camps, ds)) : ds.length = p.endTime ∧ ∀ j d, ds[j]? = some d →
      p.day j (stateBefore s₀ ds j) = .ok (d.zones, d.spawned, d.state) ∧ p.report camps j d.state = .ok d.row := by
  obtain ⟨e, _, _, h⟩ := run_parts h
  simpa using days_get h

/-- Induction over the days. -/
theorem run_induct {p : Script} {draws sd : Nat → ℚ} {s₀ : Sim} {camps : List (String × Nat)} {ds : List Day}
    {I : Nat → Sim → Prop} (h : p.run draws sd = .ok (s₀, camps, ds)) (h0 : I 0 s₀)
    (hs : ∀ t s z k s', I t s → p.day t s = .ok (z, k, s') → I (t + 1) s') :
    ∀ j d, ds[j]? = some d → I j (stateBefore s₀ ds j) ∧ I (j + 1) d.state
  | 0, d, hd => ⟨h0, hs _ _ _ _ _ h0 ((run_get h).2 0 d hd).1⟩
  | j + 1, d, hd => by
    obtain ⟨x, hx⟩ : ∃ x, ds[j]? = some x := by
      have := (List.getElem?_eq_some_iff.1 hd).1
      exact ⟨ds[j], List.getElem?_eq_getElem (by omega)⟩
    have hj : I (j + 1) (stateBefore s₀ ds (j + 1)) := by
      simp only [stateBefore, hx]
      exact (run_induct h h0 hs j x hx).2
    exact ⟨hj, hs _ _ _ _ _ hj ((run_get h).2 (j + 1) d hd).1⟩

theorem empty_inv (draws : Nat → ℚ) : Inv (Eco.empty draws).w (Eco.empty draws).agents :=
  reach_inv (P := fun _ => True) (c := {}) (draws := draws) .empty

theorem setup_inv {p : Script} {draws : Nat → ℚ} {e : Eco} {camps : List (String × Nat)}
    (h : p.setup draws = .ok (e, camps)) : Inv e.w e.agents ∧ e.w.time = 0 := by
  obtain ⟨e1, e2, h1, h2, _, h4⟩ := setup_parts h
  have g1 : Inv e1.w e1.agents ∧ e1.w.time = 0 := by
    refine (storeGeo_through h1).keeps (I := fun x => Inv x.w x.agents ∧ x.w.time = 0) ?_ ⟨empty_inv draws, rfl⟩
    rintro op x y hp ⟨hx, ht⟩ h
    refine ⟨exec_inv hx h, ?_⟩
    cases exec_devel hx h with
    | changes d => exact d.time.trans ht
    | step f ho => subst ho; exact hp.elim
    | created a ho _ t => exact t.trans ht
  have s2 := (startAgents_through h2).spawned
  have s3 := (foldlM_through (c := p.c) (fun _ _ _ => startCamp_through) h4).spawned
  exact ⟨s3.inv (s2.inv g1.1), by rw [s3.time, s2.time, g1.2]⟩

/-- The invariant, the clock and the number of locations along a run. -/
theorem run_inv {p : Script} {draws sd : Nat → ℚ} {s₀ : Sim} {camps : List (String × Nat)} {ds : List Day}
    (h : p.run draws sd = .ok (s₀, camps, ds)) : (Inv s₀.e.w s₀.e.agents) ∧ ∀ j d, ds[j]? = some d →
      DayDone p j (stateBefore s₀ ds j) d.state d.zones ∧ d.state.e.w.nLoc = s₀.e.w.nLoc ∧ d.state.e.w.time = j + 1 := by
  obtain ⟨e, hs, rfl, _⟩ := run_parts h
  obtain ⟨i0, t0⟩ := setup_inv hs
  refine ⟨i0, fun j d hd => ?_⟩
  obtain ⟨⟨i1, _⟩, _, n2, m2⟩ := run_induct (I := fun t s => Inv s.e.w s.e.agents ∧ s.e.w.nLoc = e.w.nLoc ∧ s.e.w.time = t) h
    ⟨i0, rfl, t0⟩ (fun t s z k s' ⟨hi, hn, ht⟩ hd => by
      have g := day_done hi hd
      exact ⟨g.inv, g.nLoc.trans hn, by rw [g.time, ht]⟩) j d hd
  exact ⟨day_done i1 ((run_get h).2 j d hd).1, n2, m2⟩

end Flee
