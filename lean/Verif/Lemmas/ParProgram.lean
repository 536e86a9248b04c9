import Verif.Spec.ParProgram
import Verif.Lemmas.Program
import Verif.Lemmas.ParallelAgents

/-!
Facts about the parallel simulation program: what the processes have in common.
-/

namespace Flee

open Spec

variable {c : Cfg}

/-! ### Every process on its own -/

theorem eachOfFold_ok {α : Type} {f : Nat → α → Except Err α} : ∀ {l : List Nat} {ss ss' : Nat → α}, l.Nodup →
    l.foldlM (fun ss p => do return upd ss p (← f p (ss p))) ss = .ok ss' →
    (∀ p ∈ l, f p (ss p) = .ok (ss' p)) ∧ ∀ p ∉ l, ss' p = ss p
  | [], ss, ss', _, h => by
    simp only [List.foldlM_nil, Except.pure_eq_ok] at h
    subst h
    simp
  | q :: l, ss, ss', hn, h => by
    simp only [List.foldlM_cons, Except.bind_eq_ok, Except.pure_eq_ok] at h
    obtain ⟨s1, ⟨r, h1, rfl⟩, h2⟩ := h
    rw [List.nodup_cons] at hn
    obtain ⟨g1, g2⟩ := eachOfFold_ok hn.2 h2
    constructor
    · intro p hp
      rcases List.mem_cons.1 hp with rfl | hp
      · rw [g2 p hn.1, upd_apply, if_pos rfl]
        exact h1
      · have hne : p ≠ q := fun he => hn.1 (he ▸ hp)
        have := g1 p hp
        rwa [upd_apply, if_neg hne] at this
    · intro p hp
      rw [List.mem_cons, not_or] at hp
      rw [g2 p hp.2, upd_apply, if_neg hp.1]

theorem eachOf_ok {α : Type} {k : Nat} {f : Nat → α → Except Err α} {ss ss' : Nat → α} (h : eachOf k f ss = .ok ss') :
    (∀ p < k, f p (ss p) = .ok (ss' p)) ∧ ∀ p, k ≤ p → ss' p = ss p := by
  obtain ⟨h1, h2⟩ := eachOfFold_ok List.nodup_range h
  exact ⟨fun p hp => h1 p (by simpa using hp), fun p hp => h2 p (by simpa using hp)⟩

/-! ### Reading input has the same effect on all processes -/

section steady

variable [x : ScoresCount]

/-- Two copies of the ecosystem agree in what counts; the spawn weights count if everything does. -/
structure Copies (d e : Eco) : Prop where
  world : d.w.shared = e.w.shared
  closures : d.closures = e.closures
  weights : x.own = true → d.spawnWeights = e.spawnWeights

theorem Copies.nLoc {d e : Eco} (h : Copies d e) : d.w.nLoc = e.w.nLoc := (congrArg World.nLoc h.world :)

/-- The function has the same effect on copies. -/
def Steady (f : Eco → Except Err Eco) : Prop :=
  ∀ d e d' e' : Eco, Copies d e → f d = .ok d' → f e = .ok e' → Copies d' e'

theorem Steady.ok : Steady (fun e => .ok e) := fun d e d' e' h h1 h2 => by
  cases h1; cases h2; exact h

theorem Steady.pure : Steady (fun e => pure e) := Steady.ok

theorem Steady.error {err : Err} : Steady (fun _ => .error err) := fun _ _ _ _ _ h => by cases h

theorem Steady.bind {f g : Eco → Except Err Eco} (hf : Steady f) (hg : Steady g) : Steady (fun e => f e >>= g) :=
  fun d e d' e' h h1 h2 => by
    rw [Except.bind_eq_ok] at h1 h2
    obtain ⟨d1, h1, h1'⟩ := h1
    obtain ⟨e1, h2, h2'⟩ := h2
    exact hg _ _ _ _ (hf _ _ _ _ h h1 h2) h1' h2'

theorem Steady.const {α : Type} {m : Except Err α} {f : α → Eco → Except Err Eco} (hf : ∀ a, m = .ok a → Steady (f a)) :
    Steady (fun e => m >>= fun a => f a e) := fun d e d' e' h h1 h2 => by
  rw [Except.bind_eq_ok] at h1 h2
  obtain ⟨a, ha, h1⟩ := h1
  obtain ⟨b, hb, h2⟩ := h2
  rw [ha] at hb
  cases hb
  exact hf a ha _ _ _ _ h h1 h2

theorem Steady.ite {p : Prop} [Decidable p] {f g : Eco → Except Err Eco} (hf : Steady f) (hg : Steady g) :
    Steady (fun e => if p then f e else g e) := by
  by_cases hp : p
  · simpa only [if_pos hp] using hf
  · simpa only [if_neg hp] using hg

theorem Steady.foldlM {α : Type} {f : Eco → α → Except Err Eco} (hf : ∀ a, Steady (f · a)) :
    ∀ l : List α, Steady (fun e => l.foldlM f e)
  | [] => Steady.ok
  | a :: l => by
    simp only [List.foldlM_cons]
    exact (hf a).bind (Steady.foldlM hf l)

theorem weights_shared (hx : x.own = true → x.pops = true) {w v : World} (h : w.shared = v.shared) (ho : x.own = true) :
    refreshSpawnWeights c w = refreshSpawnWeights c v := by
  have hn : w.nLoc = v.nLoc := (congrArg World.nLoc h :)
  have ht : w.time = v.time := (congrArg World.time h :)
  unfold refreshSpawnWeights
  rw [hn, ht]
  congr 1
  funext i
  have hl := shared_loc_eq h i
  have hp : (w.loc i).pop = (v.loc i).pop := by
    have := (congrArg Loc.pop hl :)
    simpa only [Loc.shared, hx ho, if_true] using this
  have hc : (w.loc i).conflict = (v.loc i).conflict := (congrArg Loc.conflict hl :)
  have hd : locationDecay c v.time (w.loc i) = locationDecay c v.time (v.loc i) := (congrArg (locationDecay c v.time) hl :)
  unfold spawnWeight
  rw [hp, hc, hd]

omit x in
theorem refresh_weights {e e' : Eco} (h : Eco.refresh c e = .ok e') : refreshSpawnWeights c e'.w = .ok e'.spawnWeights := by
  simp only [Eco.refresh, Except.bind_eq_ok, Except.pure_eq_ok] at h
  obtain ⟨ws, h, rfl⟩ := h
  exact h

omit x in
/-- Does the call bring the spawn weights up to date? -/
def Op.reweighs (w : World) : Op → Prop
  | .addLocation _ => True
  | .removeConflictZone _ _ => True
  | .addConflictZone n _ _ => ¬ (w.idxs n).isEmpty
  | .setConflictIntensity n x _ => ¬ (1 / 1000000 ≤ x ∧ (w.idxs n).isEmpty)
  | _ => False

omit x in
/-- A call on the network either keeps the spawn weights or brings them up to date. -/
theorem network_weights {op : Op} {d d' : Eco} (hn : op.network = true) (h : op.exec c d = .ok d') :
    (op.reweighs d.w → refreshSpawnWeights c d'.w = .ok d'.spawnWeights) ∧ (¬ op.reweighs d.w → d'.spawnWeights = d.spawnWeights) := by
  cases op <;> simp only [Op.network, Bool.false_eq_true] at hn <;>
    simp only [Op.exec, Except.bind_eq_ok, Except.pure_eq_ok, Except.ok.injEq] at h <;>
    simp only [Op.reweighs, not_true, not_false_eq_true, not_not, false_implies, true_implies, and_true, true_and]
  case addLocation =>
    obtain ⟨w, h1, h⟩ := h
    exact refresh_weights h
  case changeLocationType =>
    split at h
    · simp only [Except.ok.injEq] at h; subst h; rfl
    · simp at h
  case addConflictZone =>
    split at h
    · rename_i hb
      cases Except.ok.inj h; exact ⟨fun hn => absurd hb hn, fun _ => rfl⟩
    · rename_i hb
      exact ⟨fun _ => refresh_weights h, fun hn => absurd hn hb⟩
  case removeConflictZone => exact refresh_weights h
  case setConflictIntensity =>
    split at h
    · rename_i hb
      cases Except.ok.inj h; exact ⟨fun hn => absurd hb hn, fun _ => rfl⟩
    · rename_i hb
      exact ⟨fun _ => refresh_weights h, fun hn => absurd hn hb⟩
  case setClosures => subst h; rfl
  all_goals
    obtain ⟨_, _, rfl⟩ := h
    rfl

theorem reweighs_shared {w v : World} (h : w.shared = v.shared) (op : Op) : op.reweighs w ↔ op.reweighs v := by
  have hi : ∀ n, w.idxs n = v.idxs n := fun n => by rw [← shared_idxs w, h, shared_idxs]
  cases op <;> simp only [Op.reweighs, hi]

/-- What settings must be like for two copies to stay copies. -/
structure Fair (c : Cfg) : Prop where
  routes : x.own = true → c.fixedRoutes = false
  pops : x.own = true → x.pops = true

theorem Steady.op (hx : Fair c) {op : Op} (hn : op.network = true) : Steady (op.exec c) := fun d e d' e' h hd he => by
  obtain ⟨h1, h2⟩ := exec_alike hx.routes hn h.world h.closures hd he
  refine ⟨h1, h2, fun ho => ?_⟩
  obtain ⟨a1, a2⟩ := network_weights hn hd
  obtain ⟨b1, b2⟩ := network_weights hn he
  by_cases hr : op.reweighs d.w
  · have g1 := a1 hr
    rw [weights_shared hx.pops h1 ho, b1 ((reweighs_shared h.world op).1 hr)] at g1
    exact (Except.ok.inj g1).symm
  · rw [a2 hr, b2 (fun hn => hr ((reweighs_shared h.world op).2 hn)), h.weights ho]

theorem Steady.refresh (hx : Fair c) : Steady (Eco.refresh c) := fun d e d' e' h hd he => by
  have w1 := refresh_weights hd
  have w2 := refresh_weights he
  simp only [Eco.refresh, Except.bind_eq_ok, Except.pure_eq_ok] at hd he
  obtain ⟨a, -, rfl⟩ := hd
  obtain ⟨b, -, rfl⟩ := he
  refine ⟨h.world, h.closures, fun ho => ?_⟩
  rw [weights_shared (v := e.w) hx.pops h.world ho] at w1
  exact Except.ok.inj (w1.symm.trans w2)

variable (hx : Fair c)
include hx

theorem applyChanges_steady (n : Numerals) (time : Nat) : ∀ rows : List Row, Steady (applyChanges c n time · rows)
  | [] => Steady.ok
  | r :: rows => by
    simp only [applyChanges]
    refine .const fun s _ => .const fun day _ => .ite ?_ (applyChanges_steady n time rows)
    exact .const fun name _ => .const fun ty _ => (Steady.op hx rfl).bind (applyChanges_steady n time rows)

theorem applyListed_steady (n : Numerals) (time : Nat) : ∀ rows : List Row, Steady (applyListed c n time · rows)
  | [] => Steady.ok
  | r :: rows => by
    simp only [applyListed]
    refine .const fun s _ => .ite (.const fun s _ => .const fun day _ => .ite ?_ (applyListed_steady n time rows))
      (applyListed_steady n time rows)
    exact .const fun name _ => .const fun _ _ => .const fun _ _ => (Steady.op hx rfl).bind (applyListed_steady n time rows)

theorem applyConflict_steady (time : Nat) (column : String × List ℚ) : Steady (applyConflict c time · column) := by
  simp only [applyConflict]
  refine .ite .error (.const fun v _ => Steady.bind ?_ ?_)
  · unfold startConflict
    refine .ite ?_ .ok
    cases time with
    | zero => exact Steady.op hx rfl
    | succ t => exact .const fun p _ => .ite (Steady.op hx rfl) .ok
  · unfold stopConflict
    refine .ite ?_ .ok
    cases time with
    | zero => exact .ok
    | succ t => exact .const fun p _ => .ite (Steady.op hx rfl) .ok

theorem zones_steady (n : Numerals) (file : Bool) (g : Geo) (time : Nat) : Steady (addNewConflictZones c n file g time) := by
  unfold addNewConflictZones
  refine (applyChanges_steady hx n time _).bind (.ite ?_ ?_)
  · unfold applyFloods
    exact .const fun _ _ => (Steady.op hx rfl).bind (.ite (.const fun _ _ => Steady.op hx rfl) .ok)
  · unfold applyConflicts
    exact .ite (.foldlM (applyConflict_steady hx time) _) (applyListed_steady hx n time _)

theorem appendIf_steady (i : Nat) (cond : Bool) (route : List String) : Steady (appendIf c · i cond route) := by
  unfold appendIf
  exact .ite (Steady.op hx rfl) .ok

theorem storeMajor_steady (i : Nat) (name : String) : ∀ rows : List Row, Steady (storeMajor c i name · rows)
  | [] => Steady.ok
  | r :: rows => by
    simp only [storeMajor]
    exact .const fun _ _ => (appendIf_steady hx _ _ _).bind (.const fun _ _ => (appendIf_steady hx _ _ _).bind
      (storeMajor_steady i name rows))

theorem storeLocation_steady (n : Numerals) (scale : ℚ) (columns : Option (List String)) (home : String) (oid : Nat)
    (loc : Row) : Steady (storeLocation c n scale columns home oid · loc) := by
  unfold storeLocation
  refine .const fun _ _ => .const fun _ _ => .const fun _ _ => .const fun _ _ => .const fun _ _ => .const fun _ _ =>
    .const fun _ _ => .const fun _ _ => .const fun _ _ => .const fun _ _ => .const fun _ _ => .const fun _ _ => .const fun _ _ => .const fun _ _ => ?_
  exact Steady.op hx rfl

theorem storeLocations_steady (n : Numerals) (scale : ℚ) (g : Geo) (home : String) (ids : Nat → Nat) :
    ∀ (rows : List Row) (k : Nat), Steady (storeLocations c n scale g home ids k · rows)
  | [], _ => Steady.ok
  | r :: rows, k => fun d e d' e' h hd he => by
    simp only [storeLocations] at hd he
    rw [h.nLoc] at hd
    exact ((storeLocation_steady hx n scale g.columns home (ids k) r).bind (.const (m := cell r 0) fun name _ =>
      (storeMajor_steady hx e.w.nLoc name g.majorRoutes).bind (storeLocations_steady n scale g home ids rows (k + 1))))
      d e d' e' h hd he

theorem callLinkUp_steady (n : Numerals) (a b d : String) (forced : Bool) (speed walk : Option ℚ) :
    Steady (callLinkUp c n · a b d forced speed walk) := by
  unfold callLinkUp
  exact .const fun _ _ => Steady.op hx rfl

theorem storeLink_steady (n : Numerals) (cols : Option (List String)) (r : Row) : Steady (storeLink c n cols · r) := by
  unfold storeLink
  refine .const fun _ _ => .const fun _ _ => .const fun _ _ => .const fun _ _ => .const fun _ _ => .const fun _ _ => ?_
  cases r[3]? with
  | none => exact callLinkUp_steady hx _ _ _ _ _ _ _
  | some s =>
    refine .const fun flag _ => ?_
    unfold storeFlagged
    exact .ite ((callLinkUp_steady hx _ _ _ _ _ _ _).bind (callLinkUp_steady hx _ _ _ _ _ _ _)) (.ite (callLinkUp_steady hx _ _ _ _ _ _ _) (callLinkUp_steady hx _ _ _ _ _ _ _))

theorem storeGeo_steady (n : Numerals) (scale : ℚ) (ids : Nat → Nat) (cids : Nat → Nat × Nat) (g : Geo) :
    Steady (storeGeo c n scale ids cids g) := by
  unfold storeGeo
  cases g.locations with
  | nil => exact .error
  | cons first rest =>
    exact .const fun _ _ => (storeLocations_steady hx _ _ _ _ _ _ _).bind ((Steady.foldlM (storeLink_steady hx n _) _).bind
      (.const fun _ _ => Steady.op hx rfl))

end steady

/-! ### Adding agents on one process -/

/-- How many of `n` new agents process `p` keeps, if the counter stands at `t`. -/
def ownShare (k p : Nat) : Int → Nat → Nat
  | _, 0 => 0
  | t, n + 1 => (if (t + 1) % k = p then 1 else 0) + ownShare k p (t + 1) n

theorem ownShare_add (k p : Nat) (n : Nat) : ∀ (m : Nat) (t : Int), ownShare k p t (m + n) = ownShare k p t m + ownShare k p (t + m) n
  | 0, t => by simp [ownShare]
  | m + 1, t => by
    rw [show m + 1 + n = (m + n) + 1 by omega, ownShare, ownShare, ownShare_add k p n m, show t + 1 + (m : Int) = t + ((m + 1 : Nat) : Int) by push_cast; ring]
    omega

theorem ownShare_sum (k : Nat) (hk : 0 < k) : ∀ (n : Nat) (t : Int), sumOver k (fun p => (ownShare k p t n : Int)) = n
  | 0, t => by simp [ownShare, sumOver]
  | n + 1, t => by
    have : (fun p : Nat => (ownShare k p t (n + 1) : Int)) = fun p : Nat => (if (t + 1) % (k : Int) = (p : Int) then (1 : Int) else 0) + (ownShare k p (t + 1) n : Int) := by
      funext p
      rw [ownShare]
      split <;> simp
    rw [this, sumOver_add, ownShare_sum k hk n, sumOver_single k _ hk]
    push_cast
    ring

/-- Effect of `n` calls that add an agent, on process `p` of `k`. -/
structure Gains (k p n : Nat) (r r' : Proc) : Prop where
  total : r'.total = r.total + n
  agents : ∃ as, r'.e.agents = r.e.agents ++ as ∧ as.length = ownShare k p r.total n
  inv : Inv r.e.w r.e.agents → Alive r.e.agents → Inv r'.e.w r'.e.agents ∧ Alive r'.e.agents
  bare : ∀ x : ScoresCount, x.own = false → x.pops = false → r'.e.w.shared = r.e.w.shared
  closures : r'.e.closures = r.e.closures
  nLoc : r'.e.w.nLoc = r.e.w.nLoc

theorem Gains.refl (k p : Nat) (r : Proc) : Gains k p 0 r r :=
  ⟨by simp, ⟨[], by simp [ownShare]⟩, fun h g => ⟨h, g⟩, fun _ _ _ => rfl, rfl, rfl⟩

theorem Gains.trans {k p m n : Nat} {r s t : Proc} (h : Gains k p m r s) (g : Gains k p n s t) : Gains k p (m + n) r t where
  total := by rw [g.total, h.total]; push_cast; ring
  agents := by
    obtain ⟨as, h1, h2⟩ := h.agents
    obtain ⟨bs, g1, g2⟩ := g.agents
    refine ⟨as ++ bs, by rw [g1, h1, List.append_assoc], ?_⟩
    rw [List.length_append, h2, g2, ownShare_add, h.total]
  inv hi ha := g.inv (h.inv hi ha).1 (h.inv hi ha).2
  bare x ho hp := (g.bare x ho hp).trans (h.bare x ho hp)
  closures := g.closures.trans h.closures
  nLoc := g.nLoc.trans h.nLoc

theorem Gains.add {k p i : Nat} {attrs : List (String × String)} {r r' : Proc} (h : r.addAgent c k p i attrs = .ok r') :
    Gains k p 1 r r' := by
  obtain ⟨h1, -, h3⟩ := procAdd_ok h
  refine ⟨by simpa using h1, ⟨_, h3, ?_⟩, procAdd_inv h, fun x ho hp => (procAdd_bare h x hp ho).1,
    (procAdd_bare h ⟨false, false, false⟩ rfl).2, ?_⟩
  · simp only [ownShare]
    split <;> simp
  · exact (congrArg World.nLoc (procAdd_bare h ⟨false, false, false⟩ rfl).1 :)

theorem Gains.insert {k p i : Nat} {attrs : List (String × String)} {r r' : Proc} (h : r.insertAgent k p i attrs = .ok r') :
    Gains k p 1 r r' := by
  obtain ⟨h1, -, h3⟩ := procInsert_ok h
  refine ⟨by simpa using h1, ⟨_, h3, ?_⟩, procInsert_inv h, fun x ho _ => (procInsert_world h x ho).1,
    (procInsert_world h ⟨false, false, false⟩).2, ?_⟩
  · simp only [ownShare]
    split <;> simp
  · exact (congrArg World.nLoc (procInsert_world h ⟨false, false, false⟩).1 :)

theorem parSpawnAt_gains {attrs : Nat → Nat → List (String × String)} {k p : Nat} : ∀ {is : List Nat} {r r' : Proc},
    parSpawnAt c attrs k p r is = .ok r' → Gains k p is.length r r'
  | [], r, r', h => by
    simp only [parSpawnAt, Except.ok.injEq] at h
    exact h ▸ .refl ..
  | i :: is, r, r', h => by
    simp only [parSpawnAt, Except.bind_eq_ok] at h
    obtain ⟨r1, h1, h2⟩ := h
    rw [List.length_cons, Nat.add_comm]
    exact (Gains.add h1).trans (parSpawnAt_gains h2)

theorem parSpawnEach_gains {attrs : Nat → Nat → List (String × String)} {k p : Nat} {count : Nat → Loc → Except Err Int} :
    ∀ {is : List Nat} {r r' : Proc} {m : Int}, parSpawnEach c attrs k p count r is = .ok (m, r') →
    ∃ n : Nat, m ≤ n ∧ Gains k p n r r'
  | [], r, r', m, h => by
    simp only [parSpawnEach, Except.ok.injEq, Prod.mk.injEq] at h
    obtain ⟨rfl, rfl⟩ := h
    exact ⟨0, by simp, .refl ..⟩
  | i :: is, r, r', m, h => by
    simp only [parSpawnEach, Except.bind_eq_ok, Except.pure_eq_ok] at h
    obtain ⟨a, -, r1, h1, ⟨b, r2⟩, h2, h3⟩ := h
    simp only [Prod.mk.injEq] at h3
    obtain ⟨rfl, rfl⟩ := h3
    obtain ⟨n, hn, g⟩ := parSpawnEach_gains h2
    have g1 := parSpawnAt_gains h1
    rw [List.length_replicate] at g1
    exact ⟨a.toNat + n, by push_cast; omega, g1.trans g⟩

theorem parAddAtEach_gains {k p : Nat} {attrs : Attrs} : ∀ {is : List Nat} {r r' : Proc},
    parAddAtEach c k p attrs r is = .ok r' → Gains k p is.length r r'
  | [], r, r', h => by
    simp only [parAddAtEach, Except.ok.injEq] at h
    exact h ▸ .refl ..
  | i :: is, r, r', h => by
    simp only [parAddAtEach, Except.bind_eq_ok] at h
    obtain ⟨r1, h1, h2⟩ := h
    rw [List.length_cons, Nat.add_comm]
    exact (Gains.add h1).trans (parAddAtEach_gains h2)

theorem parReadAgents_gains {k p : Nat} : ∀ {rows : List Row} {i : Nat} {hs : Option (List String)} {r r' : Proc},
    parReadAgents c k p i hs r rows = .ok r' → ∃ n, Gains k p n r r'
  | [], i, hs, r, r', h => by
    simp only [parReadAgents, Except.ok.injEq] at h
    exact ⟨0, h ▸ .refl ..⟩
  | row :: rows, i, hs, r, r', h => by
    simp only [parReadAgents, Except.bind_eq_ok] at h
    obtain ⟨b, _, h⟩ := h
    split at h
    · exact parReadAgents_gains h
    · split at h
      · exact parReadAgents_gains h
      · simp only [Except.bind_eq_ok] at h
        obtain ⟨_, _, _, _, r1, h1, h2⟩ := h
        obtain ⟨n, g⟩ := parReadAgents_gains h2
        exact ⟨_, (parAddAtEach_gains h1).trans g⟩

theorem insertAll_gains {k p i : Nat} {attrs : Nat → List (String × String)} : ∀ {l : List Nat} {r r' : Proc},
    l.foldlM (fun (q : Proc) _ => q.insertAgent k p i (attrs q.e.agents.length)) r = .ok r' → Gains k p l.length r r'
  | [], r, r', h => by
    simp only [List.foldlM_nil, Except.pure_eq_ok] at h
    exact h ▸ .refl ..
  | a :: l, r, r', h => by
    simp only [List.foldlM_cons, Except.bind_eq_ok] at h
    obtain ⟨r1, h1, h2⟩ := h
    rw [List.length_cons, Nat.add_comm]
    exact (Gains.insert h1).trans (insertAll_gains h2)

theorem startAgents_gains {y : ParScript} {p : Nat} {r r' : Proc} (h : y.startAgents p r = .ok r') : ∃ n, Gains y.k p n r r' := by
  unfold ParScript.startAgents at h
  split at h
  · exact parReadAgents_gains h
  · cases h
    exact ⟨0, .refl ..⟩

theorem startCamp_gains {y : ParScript} {p : Nat} {r r' : Proc} {camp : String × Nat} (h : y.startCamp p r camp = .ok r') :
    ∃ n, Gains y.k p n r r' := by
  unfold ParScript.startCamp at h
  split at h
  · cases h
    exact ⟨0, .refl ..⟩
  · simp only [Except.bind_eq_ok] at h
    obtain ⟨_, _, _, _, h⟩ := h
    exact ⟨_, insertAll_gains (attrs := fun n => y.attrs p n camp.2) h⟩

theorem startCamps_gains {y : ParScript} {p : Nat} : ∀ {camps : List (String × Nat)} {r r' : Proc},
    camps.foldlM (y.startCamp p) r = .ok r' → ∃ n, Gains y.k p n r r'
  | [], r, r', h => by
    simp only [List.foldlM_nil, Except.pure_eq_ok] at h
    exact ⟨0, h ▸ .refl ..⟩
  | a :: l, r, r', h => by
    simp only [List.foldlM_cons, Except.bind_eq_ok] at h
    obtain ⟨r1, h1, h2⟩ := h
    obtain ⟨n, g⟩ := startCamp_gains h1
    obtain ⟨m, g'⟩ := startCamps_gains h2
    exact ⟨_, g.trans g'⟩

/-! ### Adding agents on two processes -/

section pairs

variable [x : ScoresCount] (ho : x.own = false)
include ho

theorem Copies.ofWorld {d e : Eco} (h : d.w.shared = e.w.shared) (hc : d.closures = e.closures) : Copies d e :=
  ⟨h, hc, fun h => by rw [ho] at h; cases h⟩

theorem Gains.copies {k p q m n : Nat} {r r' s s' : Proc} (hp : x.pops = false) (h : Copies r.e s.e) (g : Gains k p m r r')
    (g' : Gains k q n s s') : Copies r'.e s'.e :=
  .ofWorld ho ((g.bare x ho hp).trans (h.world.trans (g'.bare x ho hp).symm)) (g.closures.trans (h.closures.trans g'.closures.symm))

theorem add_copies {k p q i : Nat} {attrs attrs' : List (String × String)} {r r' s s' : Proc} (h : Copies r.e s.e)
    (h1 : r.addAgent c k p i attrs = .ok r') (h2 : s.addAgent c k q i attrs' = .ok s') : Copies r'.e s'.e := by
  obtain ⟨a1, b1⟩ := procAdd_world h1 x ho
  obtain ⟨a2, b2⟩ := procAdd_world h2 x ho
  refine .ofWorld ho ?_ (b1.trans (h.closures.trans b2.symm))
  rw [a1, a2, h.world]

theorem insert_copies {k p q i j : Nat} {attrs attrs' : List (String × String)} {r r' s s' : Proc} (h : Copies r.e s.e)
    (h1 : r.insertAgent k p i attrs = .ok r') (h2 : s.insertAgent k q j attrs' = .ok s') : Copies r'.e s'.e := by
  obtain ⟨a1, b1⟩ := procInsert_world h1 x ho
  obtain ⟨a2, b2⟩ := procInsert_world h2 x ho
  exact .ofWorld ho (a1.trans (h.world.trans a2.symm)) (b1.trans (h.closures.trans b2.symm))

theorem parSpawnAt_copies {attrs attrs' : Nat → Nat → List (String × String)} {k p q : Nat} : ∀ {is : List Nat} {r r' s s' : Proc},
    Copies r.e s.e → parSpawnAt c attrs k p r is = .ok r' → parSpawnAt c attrs' k q s is = .ok s' → Copies r'.e s'.e
  | [], r, r', s, s', h, h1, h2 => by
    simp only [parSpawnAt, Except.ok.injEq] at h1 h2
    exact h1 ▸ h2 ▸ h
  | i :: is, r, r', s, s', h, h1, h2 => by
    simp only [parSpawnAt, Except.bind_eq_ok] at h1 h2
    obtain ⟨r1, a1, b1⟩ := h1
    obtain ⟨s1, a2, b2⟩ := h2
    exact parSpawnAt_copies (add_copies ho h a1 a2) b1 b2

theorem parSpawnEach_copies {attrs attrs' : Nat → Nat → List (String × String)} {k p q : Nat} {count count' : Nat → Loc → Except Err Int}
    (hc : ∀ i (l l' : Loc), l.shared = l'.shared → count i l = count' i l') : ∀ {is : List Nat} {r r' s s' : Proc} {m n : Int},
    Copies r.e s.e → r.total = s.total → parSpawnEach c attrs k p count r is = .ok (m, r') →
    parSpawnEach c attrs' k q count' s is = .ok (n, s') → Copies r'.e s'.e ∧ r'.total = s'.total ∧ m = n
  | [], r, r', s, s', m, n, h, ht, h1, h2 => by
    simp only [parSpawnEach, Except.ok.injEq, Prod.mk.injEq] at h1 h2
    obtain ⟨rfl, rfl⟩ := h1
    obtain ⟨rfl, rfl⟩ := h2
    exact ⟨h, ht, rfl⟩
  | i :: is, r, r', s, s', m, n, h, ht, h1, h2 => by
    simp only [parSpawnEach, Except.bind_eq_ok, Except.pure_eq_ok] at h1 h2
    obtain ⟨a, a1, r1, a2, ⟨a3, r2⟩, a4, a5⟩ := h1
    obtain ⟨b, b1, s1, b2, ⟨b3, s2⟩, b4, b5⟩ := h2
    rw [hc i _ _ (shared_loc_eq h.world i), b1] at a1
    cases a1
    simp only [Prod.mk.injEq] at a5 b5
    obtain ⟨rfl, rfl⟩ := a5
    obtain ⟨rfl, rfl⟩ := b5
    have t1 := (parSpawnAt_gains a2).total
    have t2 := (parSpawnAt_gains b2).total
    obtain ⟨g1, g2, rfl⟩ := parSpawnEach_copies hc (parSpawnAt_copies ho h a2 b2) (by rw [t1, t2, ht]) a4 b4
    exact ⟨g1, g2, rfl⟩

theorem parAddAtEach_copies {k p q : Nat} {attrs attrs' : Attrs} : ∀ {is : List Nat} {r r' s s' : Proc},
    Copies r.e s.e → parAddAtEach c k p attrs r is = .ok r' → parAddAtEach c k q attrs' s is = .ok s' → Copies r'.e s'.e
  | [], r, r', s, s', h, h1, h2 => by
    simp only [parAddAtEach, Except.ok.injEq] at h1 h2
    exact h1 ▸ h2 ▸ h
  | i :: is, r, r', s, s', h, h1, h2 => by
    simp only [parAddAtEach, Except.bind_eq_ok] at h1 h2
    obtain ⟨r1, a1, b1⟩ := h1
    obtain ⟨s1, a2, b2⟩ := h2
    exact parAddAtEach_copies (add_copies ho h a1 a2) b1 b2

theorem parReadAgents_copies {k p q : Nat} : ∀ {rows : List Row} {i : Nat} {hs : Option (List String)} {r r' s s' : Proc},
    Copies r.e s.e → r.total = s.total → parReadAgents c k p i hs r rows = .ok r' → parReadAgents c k q i hs s rows = .ok s' →
    Copies r'.e s'.e ∧ r'.total = s'.total
  | [], i, hs, r, r', s, s', h, ht, h1, h2 => by
    simp only [parReadAgents, Except.ok.injEq] at h1 h2
    exact h1 ▸ h2 ▸ ⟨h, ht⟩
  | row :: rows, i, hs, r, r', s, s', h, ht, h1, h2 => by
    simp only [parReadAgents, Except.bind_eq_ok] at h1 h2
    obtain ⟨b, hb, h1⟩ := h1
    obtain ⟨b', hb', h2⟩ := h2
    rw [hb] at hb'
    cases hb'
    split at h1
    · rename_i hb1
      rw [if_pos hb1] at h2
      exact parReadAgents_copies h ht h1 h2
    · rename_i hb1
      rw [if_neg hb1] at h2
      split at h1
      · rename_i hi
        rw [if_pos hi] at h2
        exact parReadAgents_copies h ht h1 h2
      · rename_i hi
        rw [if_neg hi] at h2
        simp only [Except.bind_eq_ok] at h1 h2
        obtain ⟨at1, c1, n1, d1, r1, e1, f1⟩ := h1
        obtain ⟨at2, c2, n2, d2, s1, e2, f2⟩ := h2
        rw [d1] at d2
        cases d2
        have hidx : r.e.w.idxs n1 = s.e.w.idxs n1 := by rw [← shared_idxs r.e.w, h.world, shared_idxs]
        rw [hidx] at e1
        have hc := parAddAtEach_copies ho h e1 e2
        have t1 := (parAddAtEach_gains e1).total
        have t2 := (parAddAtEach_gains e2).total
        rw [hc.nLoc] at f1
        exact parReadAgents_copies hc (by rw [t1, t2, ht]) f1 f2

theorem insertAll_copies {k p q i j : Nat} {attrs attrs' : Nat → List (String × String)} : ∀ {l : List Nat} {r r' s s' : Proc},
    Copies r.e s.e → l.foldlM (fun (q : Proc) _ => q.insertAgent k p i (attrs q.e.agents.length)) r = .ok r' →
    l.foldlM (fun (y : Proc) _ => y.insertAgent k q j (attrs' y.e.agents.length)) s = .ok s' → Copies r'.e s'.e
  | [], r, r', s, s', h, h1, h2 => by
    simp only [List.foldlM_nil, Except.pure_eq_ok] at h1 h2
    exact h1 ▸ h2 ▸ h
  | a :: l, r, r', s, s', h, h1, h2 => by
    simp only [List.foldlM_cons, Except.bind_eq_ok] at h1 h2
    obtain ⟨r1, a1, b1⟩ := h1
    obtain ⟨s1, a2, b2⟩ := h2
    exact insertAll_copies (insert_copies ho h a1 a2) b1 b2

theorem startAgents_copies {y : ParScript} {p q : Nat} {r r' s s' : Proc} (h : Copies r.e s.e) (ht : r.total = s.total)
    (h1 : y.startAgents p r = .ok r') (h2 : y.startAgents q s = .ok s') : Copies r'.e s'.e ∧ r'.total = s'.total := by
  unfold ParScript.startAgents at h1 h2
  cases hr : y.s.agentRows with
  | some rows =>
    rw [hr] at h1 h2
    exact parReadAgents_copies ho h ht h1 h2
  | none =>
    rw [hr] at h1 h2
    cases h1
    cases h2
    exact ⟨h, ht⟩

theorem startCamps_copies {y : ParScript} {p q : Nat} : ∀ {camps : List (String × Nat)} {r r' s s' : Proc}, Copies r.e s.e →
    r.total = s.total → camps.foldlM (y.startCamp p) r = .ok r' → camps.foldlM (y.startCamp q) s = .ok s' →
    Copies r'.e s'.e ∧ r'.total = s'.total
  | [], r, r', s, s', h, ht, h1, h2 => by
    simp only [List.foldlM_nil, Except.pure_eq_ok] at h1 h2
    exact h1 ▸ h2 ▸ ⟨h, ht⟩
  | a :: l, r, r', s, s', h, ht, h1, h2 => by
    simp only [List.foldlM_cons, Except.bind_eq_ok] at h1 h2
    obtain ⟨r1, a1, b1⟩ := h1
    obtain ⟨s1, a2, b2⟩ := h2
    suffices Copies r1.e s1.e ∧ r1.total = s1.total from startCamps_copies this.1 this.2 b1 b2
    unfold ParScript.startCamp at a1 a2
    split at a1
    · rename_i he
      rw [if_pos he] at a2
      cases a1
      cases a2
      exact ⟨h, ht⟩
    · rename_i he
      rw [if_neg he] at a2
      simp only [Except.bind_eq_ok] at a1 a2
      obtain ⟨i1, c1, n1, d1, e1⟩ := a1
      obtain ⟨i2, c2, n2, d2, e2⟩ := a2
      rw [c1] at c2
      cases c2
      have hn : (r.e.w.loc a.2).name = (s.e.w.loc a.2).name := (congrArg Loc.name (shared_loc_eq h.world a.2) :)
      rw [hn, d2] at d1
      cases d1
      refine ⟨insertAll_copies (attrs := fun n => y.attrs p n a.2) (attrs' := fun n => y.attrs q n a.2) ho h e1 e2, ?_⟩
      have t1 := (insertAll_gains (attrs := fun n => y.attrs p n a.2) e1).total
      have t2 := (insertAll_gains (attrs := fun n => y.attrs q n a.2) e2).total
      rw [t1, t2, ht]

omit ho in
theorem lowerCapacities_shared (d : DataTable) (w : World) : lowerCapacities d w.shared = (lowerCapacities d w).shared := by
  unfold lowerCapacities
  rw [shared_nLoc]
  refine shared_foldl (fun w i => ?_) _ _
  by_cases h : (w.loc i).capacity > 0
  · rw [if_pos h, if_pos (show (w.shared.loc i).capacity > 0 from h), shared_setLoc]
    rfl
  · rw [if_neg h, if_neg (show ¬ (w.shared.loc i).capacity > 0 from h)]

end pairs

/-- What the variables of the script have in common on two processes. -/
structure Peers [ScoresCount] (s t : ParSim) : Prop where
  copies : Copies s.proc.e t.proc.e
  d : s.d = t.d
  camps : s.camps = t.camps
  raw : s.raw = t.raw
  debt : s.debt = t.debt

theorem campList_shared [ScoresCount] {w v : World} (h : w.shared = v.shared) : campList w = campList v := by
  have h1 : campList w = campList w.shared := rfl
  have h2 : campList v = campList v.shared := rfl
  rw [h1, h2, h]

end Flee
