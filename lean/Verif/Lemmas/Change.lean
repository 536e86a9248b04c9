import Verif.Lemmas.Step
import Verif.Lemmas.Util
import Mathlib.Tactic.FieldSimp
import Mathlib.Tactic.Ring
import Mathlib.Tactic.Positivity

/-!
Changing names, the unit of length and the attributes of agents: what an agent does afterwards is what it did before,
with the change applied.
-/

namespace Flee

theorem Except.bind_map_eq {ε α α' β β' : Type} {x : Except ε α} {x' : Except ε α'} {g : α → α'} {f : α → Except ε β}
    {f' : α' → Except ε β'} {k : β → β'} (hx : x' = x.map g) (h : ∀ a, x = .ok a → f' (g a) = (f a).map k) :
    (x' >>= f') = (x >>= f).map k := by
  subst hx
  cases x with
  | error e => rfl
  | ok a => exact h a rfl

theorem Except.ite_map_eq {ε β β' : Type} {p p' : Prop} [Decidable p] [Decidable p'] {x y : Except ε β}
    {x' y' : Except ε β'} {k : β → β'} (hp : p' ↔ p) (hx : p → x' = x.map k) (hy : ¬ p → y' = y.map k) :
    (if p' then x' else y') = (if p then x else y).map k := by
  by_cases h : p
  · rw [if_pos (hp.2 h), if_pos h, hx h]
  · rw [if_neg (mt hp.1 h), if_neg h, hy h]

theorem map_ite_eq {α β : Type} {p p' : Prop} [Decidable p] [Decidable p'] {x y : α} {x' y' : β} (k : α → β)
    (hp : p' ↔ p) (hx : p → x' = k x) (hy : ¬ p → y' = k y) : (if p' then x' else y') = k (if p then x else y) := by
  by_cases h : p
  · rw [if_pos (hp.2 h), if_pos h, hx h]
  · rw [if_neg (mt hp.1 h), if_neg h, hy h]

theorem Except.map_id_eq {ε α : Type} (x : Except ε α) : x = x.map id := by cases x <;> rfl

theorem Except.foldlM_map_eq {ε α α' β β' : Type} {step : α → β → Except ε α} {step' : α' → β' → Except ε α'}
    {g : α → α'} {k : β → β'} (P : α → Prop) (hP : ∀ a b a', P a → step a b = .ok a' → P a') :
    ∀ (l : List β) (_ : ∀ a, ∀ b ∈ l, P a → step' (g a) (k b) = (step a b).map g) (a : α), P a →
      (l.map k).foldlM step' (g a) = (l.foldlM step a).map g
  | [], _, _, _ => rfl
  | b :: l, h, a, ha => by
    rw [List.map_cons, List.foldlM_cons, List.foldlM_cons]
    refine Except.bind_map_eq (h a b (by simp) ha) fun a' ha' => ?_
    exact foldlM_map_eq P hP l (fun a b hb => h a b (by simp [hb])) a' (hP a b a' ha ha')

/-- A change of names, of the unit of length, of the weights of routes and of the attributes of agents. -/
structure Change where
  f : String → String
  lam : ℚ
  kap : ℚ
  g : List (String × String) → List (String × String)

namespace Change

variable (X : Change)

def str (n : PyStr) : PyStr := ⟨X.f n.val, n.oid⟩

def way : Way → Way
  | .name s => .name (X.f s)
  | .idx n => .idx n

def agent (a : Agent) : Agent :=
  { a with moved := X.lam * a.moved, dtol := X.lam * a.dtol, travelled := X.lam * a.travelled,
           route := a.route.map X.way, attrs := X.g a.attrs }

def row (r : String × ℚ × List String × Nat) : String × ℚ × List String × Nat :=
  (X.f r.1, X.kap * r.2.1, r.2.2.1.map X.f, r.2.2.2)

def loc (l : Loc) : Loc :=
  { l with name := X.str l.name, routes := l.routes.map X.row, majorRoutes := l.majorRoutes.map (List.map X.f) }

def link (k : Lnk) : Lnk :=
  { k with dist := X.lam * k.dist, maxMoveSpeed := k.maxMoveSpeed.map (X.lam * ·) }

def world (w : World) : World :=
  { w with loc := fun i => X.loc (w.loc i), link := fun l => X.link (w.link l) }

def cfg (c : Cfg) : Cfg :=
  { c with maxMoveSpeed := X.lam * c.maxMoveSpeed, maxWalkSpeed := X.lam * c.maxWalkSpeed,
           distanceSoftening := X.lam * c.distanceSoftening }

/-- The change is one that the settings do not see. -/
structure Ok (c : Cfg) : Prop where
  inj : Function.Injective X.f
  pos : 0 < X.lam
  kpos : 0 < X.kap
  scale : ∃ mu : ℚ, mu ≠ 0 ∧ (∀ x, c.distPow (X.lam * x) = mu * c.distPow x) ∧
    ∀ x, c.weightPow (x / mu) = X.kap * c.weightPow x
  age : c.childrenAvoidHazards = true → ∀ at', (X.g at').find? (fun p => p.1 = "age") = at'.find? fun p => p.1 = "age"
  gender : c.childrenAvoidHazards = true → c.boysTakeRisk = true →
    ∀ at', (X.g at').find? (fun p => p.1 = "gender") = at'.find? fun p => p.1 = "gender"
  aware : c.flood.enabled = true → c.flood.forecaster = true →
    ∀ at', (X.g at').find? (fun p => p.1 = "floodawareness") = at'.find? fun p => p.1 = "floodawareness"

/-- Candidates of an agent have no negative weight, or weights do not change. -/
def Fair (c : Cfg) (w : World) : Prop :=
  X.kap = 1 ∨ ∀ a i ws rs, routeCandidates c w a i = .ok (ws, rs) → ∀ x ∈ ws, 0 ≤ x

section basics

@[simp] theorem world_loc (w : World) (i : Nat) : (X.world w).loc i = X.loc (w.loc i) := rfl
@[simp] theorem world_link (w : World) (l : Nat) : (X.world w).link l = X.link (w.link l) := rfl
@[simp] theorem world_nLoc (w : World) : (X.world w).nLoc = w.nLoc := rfl
@[simp] theorem world_nLink (w : World) : (X.world w).nLink = w.nLink := rfl
@[simp] theorem world_time (w : World) : (X.world w).time = w.time := rfl
@[simp] theorem world_draws (w : World) : (X.world w).draws = w.draws := rfl
@[simp] theorem world_draw1 (w : World) : (X.world w).draw.1 = w.draw.1 := rfl
@[simp] theorem world_draw2 (w : World) : (X.world w).draw.2 = X.world w.draw.2 := rfl
@[simp] theorem loc_links (l : Loc) : (X.loc l).links = l.links := rfl
@[simp] theorem loc_name (l : Loc) : (X.loc l).name.val = X.f l.name.val := rfl
@[simp] theorem loc_marker (l : Loc) : (X.loc l).marker = l.marker := rfl
@[simp] theorem loc_camp (l : Loc) : (X.loc l).camp = l.camp := rfl
@[simp] theorem link_endp (k : Lnk) : (X.link k).endp = k.endp := rfl
@[simp] theorem link_start (k : Lnk) : (X.link k).start = k.start := rfl
@[simp] theorem link_closed (k : Lnk) : (X.link k).closed = k.closed := rfl
@[simp] theorem link_dist (k : Lnk) : (X.link k).dist = X.lam * k.dist := rfl
@[simp] theorem cfg_awareness (c : Cfg) : (X.cfg c).awareness = c.awareness := rfl
@[simp] theorem agent_place (a : Agent) : (X.agent a).place = a.place := rfl
@[simp] theorem agent_travelling (a : Agent) : (X.agent a).travelling = a.travelling := rfl

@[simp] theorem epName_val (w : World) (l : Nat) : ((X.world w).epName l).val = X.f (w.epName l).val := rfl
@[simp] theorem epName_oid (w : World) (l : Nat) : ((X.world w).epName l).oid = (w.epName l).oid := rfl

theorem upd_map {α β : Type} (k : α → β) (g : Nat → α) (i : Nat) (v : α) :
    (fun j => k (upd g i v j)) = upd (fun j => k (g j)) i (k v) := by
  funext j
  simp only [upd]
  split <;> rfl

theorem world_setLoc (w : World) (i : Nat) (l : Loc) : X.world (w.setLoc i l) = (X.world w).setLoc i (X.loc l) := by
  simp only [world, World.setLoc, upd_map]

theorem world_setLink (w : World) (i : Nat) (k : Lnk) :
    X.world (w.setLink i k) = (X.world w).setLink i (X.link k) := by
  simp only [world, World.setLink, upd_map]

theorem world_decr (w : World) (p : Place) : (X.world w).decr p = X.world (w.decr p) := by
  cases p with
  | loc i => simp only [World.decr, world_setLoc]; rfl
  | link l => simp only [World.decr, world_setLink]; rfl
  | gone i => rfl

theorem world_incr (w : World) (p : Place) : (X.world w).incr p = X.world (w.incr p) := by
  cases p with
  | loc i => simp only [World.incr, world_setLoc]; rfl
  | link l => simp only [World.incr, world_setLink]; rfl
  | gone i => rfl

def both (r : World × Agent) : World × Agent := (X.world r.1, X.agent r.2)

theorem handleTravel_eq (w : World) (a : Agent) (p : Place) (t : Bool) :
    handleTravel (X.world w) (X.agent a) p t = X.both (handleTravel w a p t) := by
  simp only [handleTravel, both, agent_place, world_decr, world_incr, agent, mul_zero]

end basics

section choice

variable {X} {c : Cfg}

theorem getCapMultiplier_eq (l : Loc) : getCapMultiplier (X.cfg c) (X.loc l) = getCapMultiplier c l := rfl

/-- Weights and routes, changed. -/
def cands (r : List ℚ × List (List String)) : List ℚ × List (List String) :=
  (r.1.map (X.kap * ·), r.2.map (List.map X.f))

theorem candidateWeight_eq (h : X.Ok c) (s : ℚ) (l : Loc) (dist prior : ℚ) :
    candidateWeight (X.cfg c) s (X.loc l) (X.lam * dist) (X.lam * prior) =
      (candidateWeight c s l dist prior).map (X.kap * ·) := by
  obtain ⟨mu, hmu, h1, h2⟩ := h.scale
  unfold candidateWeight
  rw [getCapMultiplier_eq]
  have e1 : (X.cfg c).distPow ((X.cfg c).distanceSoftening + X.lam * dist + X.lam * prior) =
      mu * c.distPow (c.distanceSoftening + dist + prior) := by
    rw [← h1]
    exact congrArg c.distPow (by simp only [cfg]; ring)
  dsimp only
  rw [e1]
  generalize c.distPow (c.distanceSoftening + dist + prior) = d
  by_cases hd : d = 0
  · rw [if_pos (by rw [hd, mul_zero]), if_pos hd]; rfl
  · rw [if_neg (mul_ne_zero hmu hd), if_neg hd]
    cases getCapMultiplier c l with
    | error e => rfl
    | ok m =>
      refine congrArg Except.ok ?_
      show c.weightPow ((c.weightSoftening + s) / (mu * d) * m) = X.kap * c.weightPow ((c.weightSoftening + s) / d * m)
      rw [← h2]
      refine congrArg c.weightPow ?_
      field_simp

theorem ownCandidate_eq (h : X.Ok c) (w : World) {score score' : Loc → Except Err ℚ}
    (hs : ∀ l, score' (X.loc l) = score l) (l : Nat) (prior : ℚ) (origin : List String) :
    ownCandidate (X.cfg c) (X.world w) score' l (X.lam * prior) (origin.map X.f) =
      (ownCandidate c w score l prior origin).map X.cands := by
  unfold ownCandidate
  refine Except.ite_map_eq Iff.rfl (fun _ => rfl) fun _ => ?_
  refine Except.bind_map_eq (g := id) ((hs _).trans (Except.map_id_eq _)) fun s _ => ?_
  refine Except.bind_map_eq (candidateWeight_eq h _ _ _ _) fun x _ => ?_
  simp [cands, pure, Except.pure, Except.map]

theorem linkWeight_eq (h : X.Ok c) (w : World) {score score' : Loc → Except Err ℚ}
    (hs : ∀ l, score' (X.loc l) = score l) : ∀ (fuel l : Nat) (prior : ℚ) (origin : List String) (step : Int),
    linkWeight (X.cfg c) (X.world w) score' fuel l (X.lam * prior) (origin.map X.f) step =
      (linkWeight c w score fuel l prior origin step).map X.cands
  | 0, _, _, _, _ => rfl
  | fuel + 1, l, prior, origin, step => by
    unfold linkWeight
    refine Except.bind_map_eq (ownCandidate_eq h w hs l prior origin) fun base _ => ?_
    refine Except.ite_map_eq Iff.rfl (fun _ => ?_) fun _ => rfl
    · dsimp only [world_link, world_loc, link_endp, link_dist, loc_marker, loc_name, loc_links, epName_val]
      conv_lhs => rw [← List.map_id (w.loc (w.link l).endp).links]
      refine Except.foldlM_map_eq (P := fun _ => True) (fun _ _ _ _ _ => trivial) _ ?_ base trivial
      intro acc lel _ _
      refine Except.ite_map_eq (List.mem_map_of_injective h.inj) (fun _ => rfl) fun _ => ?_
      · have := linkWeight_eq h w hs fuel lel (prior + (w.link l).dist)
          (origin ++ [(w.loc (w.link l).endp).name.val]) ((if (w.loc (w.link l).endp).marker then step - 1 else step) + 1)
        rw [mul_add, List.map_append, List.map_singleton] at this
        refine (congrArg (Except.map _) this).trans ?_
        cases linkWeight c w score fuel lel (prior + (w.link l).dist)
          (origin ++ [(w.loc (w.link l).endp).name.val]) ((if (w.loc (w.link l).endp).marker then step - 1 else step) + 1) with
        | error e => rfl
        | ok r => simp [Except.map, cands]

theorem allRoutes_eq (h : X.Ok c) (w : World) {score score' : Loc → Except Err ℚ}
    (hs : ∀ l, score' (X.loc l) = score l) (i : Nat) :
    allRoutes (X.cfg c) (X.world w) score' i = (allRoutes c w score i).map X.cands := by
  unfold allRoutes
  dsimp only [world_loc, loc_links]
  conv_lhs => rw [← List.map_id (w.loc i).links]
  refine Except.foldlM_map_eq (g := X.cands) (P := fun _ => True) (fun _ _ _ _ _ => trivial) _ ?_ ([], []) trivial
  intro acc e _ _
  have := linkWeight_eq h w hs w.searchFuel e 0 [(w.loc i).name.val] 1
  rw [mul_zero, List.map_singleton] at this
  simp only [id_eq]
  rw [show (X.world w).searchFuel = w.searchFuel from rfl, loc_name, this]
  cases linkWeight c w score w.searchFuel e 0 [(w.loc i).name.val] 1 with
  | error e => rfl
  | ok r => simp [Except.map, cands]

theorem sum_map_mul (k : ℚ) (ws : List ℚ) : (ws.map (k * ·)).sum = k * ws.sum := by
  induction ws with
  | nil => simp
  | cons x xs ih => simp [ih, mul_add]

theorem normalizeWeights_eq (hk : 0 < X.kap) {ws : List ℚ} (h : X.kap = 1 ∨ ∀ x ∈ ws, 0 ≤ x) :
    normalizeWeights (ws.map (X.kap * ·)) = normalizeWeights ws := by
  rcases h with h | h
  · simp [h]
  · unfold normalizeWeights
    rw [sum_map_mul]
    by_cases hs : ws.sum > 0
    · rw [if_pos (mul_pos hk hs), if_pos hs, List.map_map]
      refine List.map_congr_left fun x _ => ?_
      simp only [Function.comp]
      rw [mul_div_mul_left _ _ hk.ne']
    · rw [if_neg (by intro h'; exact hs ((mul_pos_iff_of_pos_left hk).1 h')), if_neg hs]
      have h0 : ws.sum = 0 := le_antisymm (not_lt.1 hs) (List.sum_nonneg h)
      have hz : ∀ x ∈ ws, x = 0 := fun x hx => List.all_zero_of_le_zero_le_of_sum_eq_zero h h0 hx
      rw [List.map_map, List.length_map]
      refine List.map_congr_left fun x hx => ?_
      simp [hz x hx]

theorem chooseFromWeights_eq {α β : Type} (k : α → β) (hk : 0 < X.kap) {ws : List ℚ}
    (h : X.kap = 1 ∨ ∀ x ∈ ws, 0 ≤ x) (rs : List α) (r : ℚ) :
    chooseFromWeights (ws.map (X.kap * ·)) (rs.map k) r = (chooseFromWeights ws rs r).map (Option.map k) := by
  unfold chooseFromWeights
  rw [normalizeWeights_eq hk h, List.length_map]
  split
  · rfl
  · unfold choices
    rw [List.length_map]
    split
    · rfl
    · split
      · rfl
      · rw [List.getElem?_map]
        cases rs[scanIdx 0 (r * (normalizeWeights ws).sum) (normalizeWeights ws)]? <;> rfl

end choice

section score

variable {X} {c : Cfg}

theorem personalScore_eq (h : X.Ok c) (a : Agent) (s : ℚ) :
    personalScore (X.cfg c) (X.agent a) s = personalScore c a s := by
  unfold personalScore
  by_cases hc : c.childrenAvoidHazards = true
  · rw [if_pos hc, if_pos (show (X.cfg c).childrenAvoidHazards = true from hc)]
    have h1 : (X.agent a).attr "age" = a.attr "age" := by
      unfold Agent.attr
      rw [show (X.agent a).attrs = X.g a.attrs from rfl, h.age hc]
    have h2 : childScore (X.cfg c) (X.agent a) = childScore c a := by
      unfold childScore numAttribute
      rw [h1]
      rfl
    rw [h2]
    by_cases hb : c.boysTakeRisk = true
    · have h3 : (X.agent a).attr "gender" = a.attr "gender" := by
        unfold Agent.attr
        rw [show (X.agent a).attrs = X.g a.attrs from rfl, h.gender hc hb]
      have h4 : boyScore (X.cfg c) (X.agent a) = boyScore c a := by
        unfold boyScore numAttribute
        rw [h1, h3]
        rfl
      rw [h4]
      rfl
    · simp only [show (X.cfg c).boysTakeRisk = c.boysTakeRisk from rfl, hb]
      rfl
  · rw [if_neg hc, if_neg (show ¬ (X.cfg c).childrenAvoidHazards = true from hc)]

theorem coords_eq (w : World) (p : Place) : (X.world w).coords p = w.coords p := by cases p <;> rfl

theorem homeFactor_eq (w : World) (a : Agent) (l : Loc) :
    homeFactor (X.cfg c) (X.world w) (X.agent a) (X.loc l) = homeFactor c w a l := by
  unfold homeFactor
  rw [agent_place, coords_eq]
  rfl

theorem awarenessWeight_eq (h : X.Ok c) (h1 : c.flood.enabled = true) (h2 : c.flood.forecaster = true) (a : Agent) :
    awarenessWeight (X.cfg c) (X.agent a) = awarenessWeight c a := by
  unfold awarenessWeight numAttribute Agent.attr
  rw [show (X.agent a).attrs = X.g a.attrs from rfl, h.aware h1 h2]
  rfl

theorem forecastFactor_eq (h : X.Ok c) (he : c.flood.enabled = true) (a : Agent) (l : Loc) (t : Nat) :
    forecastFactor (X.cfg c) (X.agent a) (X.loc l) t = forecastFactor c a l t := by
  unfold forecastFactor
  by_cases hc : c.flood.forecaster = true
  · rw [awarenessWeight_eq h he hc]; rfl
  · rw [if_neg (by simp [FloodCfg.active, cfg, hc]), if_neg (by simp [FloodCfg.active, hc])]

theorem floodFactor_eq (h : X.Ok c) (a : Agent) (l : Loc) (t : Nat) :
    floodFactor (X.cfg c) (X.agent a) (X.loc l) t = floodFactor c a l t := by
  unfold floodFactor
  by_cases he : c.flood.enabled = true
  · rw [if_pos he, if_pos (show (X.cfg c).flood.enabled = true from he), forecastFactor_eq h he]
    rfl
  · rw [if_neg he, if_neg (show ¬ (X.cfg c).flood.enabled = true from he)]

theorem endPointScore_eq (h : X.Ok c) (w : World) (a : Agent) (l : Loc) :
    (X.cfg c).endPointScore (X.world w) (X.agent a) (X.loc l) = c.endPointScore w a l := by
  unfold Cfg.endPointScore
  rw [personalScore_eq h, homeFactor_eq, floodFactor_eq h]
  rfl

theorem moveChance_eq (h : X.Ok c) (a : Agent) (l : Loc) (t : Nat) (f : Bool) :
    moveChance (X.cfg c) (X.agent a) (X.loc l) t f = moveChance c a l t f := by
  unfold moveChance
  by_cases he : c.flood.enabled = true
  · have : forecastChance (X.cfg c) (X.agent a) (X.loc l) t = forecastChance c a l t := by
      unfold forecastChance
      by_cases hc : c.flood.forecaster = true
      · rw [awarenessWeight_eq h he hc]; rfl
      · rw [if_neg (by simp [FloodCfg.active, cfg, hc]), if_neg (by simp [FloodCfg.active, hc])]
    rw [this]
    rfl
  · rw [show (X.cfg c).flood.enabled = c.flood.enabled from rfl, Bool.not_eq_true] at *
    simp only [he]
    rfl

end score

section travel

variable {X} {c : Cfg}

theorem erase_map_inj {α β : Type} [DecidableEq α] [DecidableEq β] {k : α → β} (hk : Function.Injective k) (l : List α)
    (x : α) : (l.map k).erase (k x) = (l.erase x).map k := by
  induction l with
  | nil => rfl
  | cons y ys ih =>
    simp only [List.map_cons, List.erase_cons, beq_iff_eq, hk.eq_iff]
    split <;> simp [ih]

theorem pruneLoop_eq (hk : 0 < X.kap) (hf : Function.Injective X.f) (thr : ℚ) :
    ∀ (n : Nat) (ws : List ℚ) (rs : List (List String)) (i : Nat), ws.length - i ≤ n →
    pruneLoop (X.kap * thr) (ws.map (X.kap * ·)) (rs.map (List.map X.f)) i = (pruneLoop thr ws rs i).map X.cands := by
  have hkinj : Function.Injective (X.kap * ·) := mul_right_injective₀ hk.ne'
  have hfinj : Function.Injective (List.map X.f) := List.map_injective_iff.2 hf
  intro n
  induction n with
  | zero =>
    intro ws rs i hn
    rw [pruneLoop, dif_neg (by simp; omega)]
    conv_rhs => rw [pruneLoop, dif_neg (by omega)]
    rfl
  | succ n ih =>
    intro ws rs i hn
    rw [pruneLoop]
    conv_rhs => rw [pruneLoop]
    by_cases hi : i < ws.length
    · rw [dif_pos (by simpa using hi), dif_pos hi]
      simp only [List.getElem_map, List.getElem?_map]
      refine Except.ite_map_eq (mul_lt_mul_iff_right₀ hk) (fun _ => ?_) fun _ => ?_
      · cases rs[i]? with
        | none => rfl
        | some r =>
          simp only [Option.map_some]
          rw [erase_map_inj hkinj, erase_map_inj hfinj]
          refine ih _ _ _ ?_
          rw [List.length_erase_of_mem (List.getElem_mem hi)]
          omega
      · exact ih _ _ _ (by omega)
    · rw [dif_neg (by simpa using hi), dif_neg hi]
      rfl

theorem max?_map_mul (hk : 0 < X.kap) : ∀ ws : List ℚ, (ws.map (X.kap * ·)).max? = ws.max?.map (X.kap * ·)
  | [] => rfl
  | x :: xs => by
    simp only [List.map_cons, List.max?_cons', Option.map_some, Option.some.injEq]
    induction xs generalizing x with
    | nil => rfl
    | cons y ys ih =>
      simp only [List.map_cons, List.foldl_cons]
      rw [← mul_max_of_nonneg _ _ hk.le]
      exact ih _

theorem pruneRoutes_eq (h : X.Ok c) (ws : List ℚ) (rs : List (List String)) :
    pruneRoutes (X.cfg c) (ws.map (X.kap * ·)) (rs.map (List.map X.f)) = (pruneRoutes c ws rs).map X.cands := by
  unfold pruneRoutes
  refine Except.ite_map_eq Iff.rfl (fun _ => rfl) fun _ => ?_
  rw [max?_map_mul h.kpos]
  cases ws.max? with
  | none => rfl
  | some m =>
    simp only [Option.map_some]
    rw [show X.kap * m / (X.cfg c).pruningThreshold = X.kap * (m / c.pruningThreshold) from mul_div_assoc _ _ _]
    exact pruneLoop_eq h.kpos h.inj _ _ _ _ _ le_rfl

theorem mapM_map_eq {ε α α' β β' : Type} {f : α → Except ε β} {f' : α' → Except ε β'} {k : α → α'} {m : β → β'}
    (h : ∀ a, f' (k a) = (f a).map m) : ∀ l : List α, (l.map k).mapM f' = (l.mapM f).map (List.map m)
  | [] => rfl
  | a :: l => by
    rw [List.map_cons, List.mapM_cons, List.mapM_cons]
    refine Except.bind_map_eq (h a) fun b _ => ?_
    exact Except.bind_map_eq (mapM_map_eq h l) fun bs _ => rfl

theorem routeCandidates_eq (h : X.Ok c) (w : World) (a : Agent) (i : Nat) :
    routeCandidates (X.cfg c) (X.world w) (X.agent a) i = (routeCandidates c w a i).map X.cands := by
  unfold routeCandidates
  refine Except.ite_map_eq Iff.rfl (fun _ => ?_) fun _ => ?_
  · refine Except.bind_map_eq (mapM_map_eq (m := (X.kap * ·)) (fun r => ?_) (w.loc i).routes) fun ws _ => ?_
    · unfold fixedWeight
      refine Except.bind_map_eq ((endPointScore_eq h w a _).trans (Except.map_id_eq _)) fun s _ => ?_
      show Except.ok _ = Except.ok _
      simp [row, mul_assoc]
    · show Except.ok _ = Except.ok _
      simp [cands, loc, row, Function.comp_def]
  · rw [allRoutes_eq h w (fun l => endPointScore_eq h w a l)]
    cases allRoutes c w (c.endPointScore w a) i with
    | error e => rfl
    | ok r =>
      have := pruneRoutes_eq h r.1 (r.2.map List.tail)
      simp only [Except.map, cands, List.map_map, Function.comp_def, List.map_tail] at this ⊢
      exact this

theorem selectRoute_eq (h : X.Ok c) {w : World} (hw : X.Fair c w) (a : Agent) (i : Nat) :
    selectRoute (X.cfg c) (X.world w) (X.agent a) i =
      (selectRoute c w a i).map fun r => (r.1.map (List.map X.way), X.world r.2) := by
  unfold selectRoute
  refine Except.ite_map_eq Iff.rfl (fun _ => ?_) fun _ => ?_
  · exact Except.ite_map_eq Iff.rfl (fun _ => rfl) fun _ => rfl
  · rw [routeCandidates_eq h]
    cases hr : routeCandidates c w a i with
    | error e => rfl
    | ok r =>
      obtain ⟨ws, rs⟩ := r
      simp only [Except.map, cands, List.length_map]
      refine Except.ite_map_eq Iff.rfl (fun _ => rfl) fun _ => ?_
      rw [world_draw1, chooseFromWeights_eq _ h.kpos (hw.imp id fun g => g a i ws rs hr)]
      cases chooseFromWeights ws rs w.draw.1 with
      | error e => rfl
      | ok o =>
        cases o with
        | none => rfl
        | some route =>
          simp only [Except.map, Option.map_some, List.length_map]
          refine Except.ite_map_eq Iff.rfl (fun _ => rfl) fun _ => ?_
          simp [Except.map, Function.comp_def, way]

theorem way_inj (h : X.Ok c) : Function.Injective X.way := by
  intro x y hxy
  cases x <;> cases y <;> simp only [way, Way.name.injEq, Way.idx.injEq, reduceCtorEq] at hxy ⊢
  · exact h.inj hxy
  · exact hxy

theorem name_eq_way (h : X.Ok c) (s : String) (d : Way) : Way.name (X.f s) = X.way d ↔ Way.name s = d :=
  (way_inj h).eq_iff (a := .name s)

theorem find?_congr' {α : Type} {p q : α → Bool} (h : ∀ a, p a = q a) (l : List α) : l.find? p = l.find? q := by
  rw [show p = q from funext h]

theorem destIsFullCamp_eq (h : X.Ok c) (w : World) (d : Way) :
    destIsFullCamp (X.cfg c) (X.world w) (X.way d) = destIsFullCamp c w d := by
  unfold destIsFullCamp
  rw [world_nLoc, find?_congr' (q := fun i => decide (Way.name (w.loc i).name.val = d)) fun i => ?_]
  · rfl
  · exact decide_eq_decide.2 (name_eq_way h _ _)

theorem takeNextStep_eq (h : X.Ok c) (w : World) (route : Option (List Way)) (i : Nat) :
    takeNextStep (X.cfg c) (X.world w) (route.map (List.map X.way)) i =
      (takeNextStep c w route i).map fun r => (r.1, r.2.map X.way) := by
  unfold takeNextStep
  rw [world_loc, loc_links]
  cases hl : (w.loc i).links with
  | nil => rfl
  | cons l ls =>
    match route with
    | none => rfl
    | some [] => rfl
    | some (r :: rs) =>
      dsimp only [Option.map_some, List.map]
      rw [find?_congr' (p := fun l => decide (Way.name ((X.world w).epName l).val = X.way r))
        (q := fun l => decide (Way.name (w.epName l).val = r)) fun l => decide_eq_decide.2 (name_eq_way h _ _)]
      cases (l :: ls).find? fun l => decide (Way.name (w.epName l).val = r) with
      | none => rfl
      | some l' =>
        dsimp only
        have hlast : (X.way r :: List.map X.way rs).getLast (by simp) = X.way ((r :: rs).getLast (by simp)) := by
          rw [← List.getLast_map (l := r :: rs) (f := X.way) (by simp)]
          rfl
        rw [hlast]
        refine Except.bind_map_eq ((destIsFullCamp_eq h w _).trans (Except.map_id_eq _)) fun full _ => ?_
        exact Except.ite_map_eq Iff.rfl (fun _ => rfl) fun _ => rfl

theorem planRoute_eq (h : X.Ok c) {w : World} (hw : X.Fair c w) (a : Agent) (i : Nat) :
    planRoute (X.cfg c) (X.world w) (X.agent a) i =
      (planRoute c w a i).map fun r => (r.1.map (List.map X.way), X.world r.2) := by
  unfold planRoute
  refine Except.ite_map_eq (by simp [agent]) (fun _ => selectRoute_eq h hw a i) fun _ => rfl

theorem tryDepart_eq (h : X.Ok c) {w : World} (hw : X.Fair c w) (a : Agent) (i : Nat) :
    tryDepart (X.cfg c) (X.world w) (X.agent a) i = (tryDepart c w a i).map X.both := by
  unfold tryDepart
  refine Except.bind_map_eq (planRoute_eq h hw a i) fun r _ => ?_
  refine Except.bind_map_eq (takeNextStep_eq h r.2 r.1 i) fun q _ => ?_
  obtain ⟨d, rt⟩ := q
  cases d with
  | none => rfl
  | some l => exact congrArg Except.ok (X.handleTravel_eq r.2 { a with route := rt } (.link l) true)

theorem personEvolve_eq (h : X.Ok c) {w : World} (hw : X.Fair c w.draw.2) (a : Agent) (f : Bool) :
    personEvolve (X.cfg c) (X.world w) (X.agent a) f = (personEvolve c w a f).map X.both := by
  unfold personEvolve
  refine Except.ite_map_eq Iff.rfl (fun _ => rfl) fun _ => ?_
  rw [agent_place]
  cases a.place with
  | link l => rfl
  | gone i => rfl
  | loc i =>
    refine Except.bind_map_eq ((moveChance_eq h a _ _ f).trans (Except.map_id_eq _)) fun m _ => ?_
    exact Except.ite_map_eq Iff.rfl (fun _ => tryDepart_eq h hw a i) fun _ => rfl

theorem todaysSpeed_eq (k : Lnk) (a : Agent) (r : ℚ) :
    todaysSpeed (X.cfg c) (X.link k) (X.agent a) r = X.lam * todaysSpeed c k a r := by
  refine map_ite_eq (X.lam * ·) Iff.rfl (fun _ => rfl) fun _ => ?_
  refine map_ite_eq (X.lam * ·) Iff.rfl (fun _ => rfl) fun _ => ?_
  simp only [link]
  cases k.maxMoveSpeed <;> rfl

theorem forceTownMove_eq (h : X.Ok c) (a : Agent) : forceTownMove (X.cfg c) (X.agent a) = forceTownMove c a := by
  simp only [forceTownMove, cfg, agent, mul_div_mul_left _ _ h.pos.ne']

/-- Fairness does not depend on the agents that are counted, as long as there are no negative weights anyway. -/
def AllFair (X : Change) (c : Cfg) (w : World) : Prop :=
  ∀ w' : World, w'.nLoc = w.nLoc → w'.time = w.time → (∀ i, (w'.loc i).core = (w.loc i).core) →
    (∀ l, (w'.link l).core = (w.link l).core) → X.Fair c w'

theorem AllFair.self {w : World} (h : AllFair X c w) : X.Fair c w := h w rfl rfl (fun _ => rfl) fun _ => rfl

theorem AllFair.congr {w w' : World} (h : AllFair X c w) (h1 : w'.nLoc = w.nLoc) (h2 : w'.time = w.time)
    (h3 : ∀ i, (w'.loc i).core = (w.loc i).core) (h4 : ∀ l, (w'.link l).core = (w.link l).core) : AllFair X c w' :=
  fun w'' g1 g2 g3 g4 => h w'' (g1.trans h1) (g2.trans h2) (fun i => (g3 i).trans (h3 i)) fun l => (g4 l).trans (h4 l)

/-- Two worlds that differ in counters and draws only. -/
def Counters (w w' : World) : Prop :=
  w'.nLoc = w.nLoc ∧ w'.time = w.time ∧ (∀ i, (w'.loc i).core = (w.loc i).core) ∧ ∀ l, (w'.link l).core = (w.link l).core

theorem Counters.refl (w : World) : Counters w w := ⟨rfl, rfl, fun _ => rfl, fun _ => rfl⟩

theorem Counters.trans {w w' w'' : World} (h : Counters w w') (g : Counters w' w'') : Counters w w'' :=
  ⟨g.1.trans h.1, g.2.1.trans h.2.1, fun i => (g.2.2.1 i).trans (h.2.2.1 i), fun l => (g.2.2.2 l).trans (h.2.2.2 l)⟩

theorem Counters.draw (w : World) : Counters w w.draw.2 := ⟨rfl, rfl, fun _ => rfl, fun _ => rfl⟩

theorem Counters.decr (w : World) (p : Place) : Counters w (w.decr p) := by
  cases p <;> refine ⟨rfl, rfl, fun i => ?_, fun l => ?_⟩ <;>
    simp only [World.decr, World.setLoc, World.setLink, upd_apply] <;> (try split) <;> simp_all [Loc.core, Lnk.core]

theorem Counters.incr (w : World) (p : Place) : Counters w (w.incr p) := by
  cases p <;> refine ⟨rfl, rfl, fun i => ?_, fun l => ?_⟩ <;>
    simp only [World.incr, World.setLoc, World.setLink, upd_apply] <;> (try split) <;> simp_all [Loc.core, Lnk.core]

theorem Counters.handleTravel (w : World) (a : Agent) (p : Place) (t : Bool) : Counters w (handleTravel w a p t).1 :=
  (Counters.decr w a.place).trans (Counters.incr _ p)

theorem Counters.personEvolve {w w' : World} {a a' : Agent} {f : Bool} (h : personEvolve c w a f = .ok (w', a')) :
    Counters w w' := by
  cases ht : a.travelling with
  | true => rw [(personEvolve_travelling h ht).1]; exact .refl w
  | false =>
    obtain ⟨i, -, d, rt, ⟨rfl, -⟩ | ⟨l, -, hh⟩⟩ := personEvolve_cases h ht
    · exact ⟨rfl, rfl, fun _ => rfl, fun _ => rfl⟩
    · obtain ⟨rfl, -⟩ := Prod.mk.inj hh
      exact Counters.trans (w' := { w with draws := d }) ⟨rfl, rfl, fun _ => rfl, fun _ => rfl⟩
        (Counters.handleTravel _ { a with route := rt } (.link l) true)

theorem Counters.finishTravel : ∀ {fuel : Nat} {w w' : World} {a a' : Agent},
    finishTravel c fuel w a = .ok (w', a') → Counters w w'
  | 0, _, _, _, _, h => by simp [Flee.finishTravel] at h
  | fuel + 1, w, w', a, a', h => by
    cases ht : a.travelling with
    | false => rw [(finishTravel_idle h ht).1]; exact .refl w
    | true =>
      obtain ⟨l, hl, s, hs, ⟨h1, rfl, rfl⟩ | ⟨h1, h2, hh⟩ | ⟨h1, h2, h3, hh⟩ |
        ⟨h1, h2, h3, w1, a1, f, h4, h5⟩⟩ := finishTravel_cases h ht
      · exact .draw w
      · rw [show w' = _ from congrArg Prod.fst hh]
        exact (Counters.draw w).trans (Counters.handleTravel _ _ _ _)
      · rw [show w' = _ from congrArg Prod.fst hh]
        exact (Counters.draw w).trans (Counters.handleTravel _ _ _ _)
      · exact (((Counters.draw w).trans (Counters.handleTravel _ _ _ _)).trans (Counters.personEvolve h4)).trans
          (Counters.finishTravel h5)

theorem AllFair.of {w w' : World} (h : AllFair X c w) (g : Counters w w') : AllFair X c w' :=
  h.congr g.1 g.2.1 g.2.2.1 g.2.2.2

theorem finishTravel_link {fuel : Nat} {w : World} {a : Agent} {l : Nat} (hp : a.place = .link l) (ht : a.travelling = true) :
    finishTravel c (fuel + 1) w a =
      if a.dtol + todaysSpeed c (w.link l) a w.draw.1 > (w.link l).dist then
        if (w.link l).closed then
          .ok (handleTravel w.draw.2 (reached a (todaysSpeed c (w.link l) a w.draw.1) (w.link l).dist)
            (.loc (w.link l).start) false)
        else if (reached a (todaysSpeed c (w.link l) a w.draw.1) (w.link l).dist).moved <
            todaysSpeed c (w.link l) a w.draw.1 then do
          let r ← personEvolve c (arrival w a l (todaysSpeed c (w.link l) a w.draw.1)).1
            (arrival w a l (todaysSpeed c (w.link l) a w.draw.1)).2
            (forceTownMove c (arrival w a l (todaysSpeed c (w.link l) a w.draw.1)).2)
          finishTravel c fuel r.1 r.2
        else .ok (arrival w a l (todaysSpeed c (w.link l) a w.draw.1))
      else .ok (w.draw.2, { a with dtol := a.dtol + todaysSpeed c (w.link l) a w.draw.1,
                                   moved := a.moved + todaysSpeed c (w.link l) a w.draw.1 }) := by
  obtain ⟨place, home, ts, pl, rec, mv, tr, dt, td, rt, at'⟩ := a
  obtain rfl : place = .link l := hp
  obtain rfl : tr = true := ht
  rw [finishTravel]
  simp only [if_true, decide_eq_true_eq, reached, arrival]
  rfl

theorem reached_eq (a : Agent) (s d : ℚ) : reached (X.agent a) (X.lam * s) (X.lam * d) = X.agent (reached a s d) := by
  simp only [agent, reached, Agent.mk.injEq, true_and, and_true]
  refine ⟨by ring, by ring, by ring⟩

theorem arrival_eq (w : World) (a : Agent) (l : Nat) (s : ℚ) :
    arrival (X.world w) (X.agent a) l (X.lam * s) = X.both (arrival w a l s) := by
  unfold arrival
  rw [← X.handleTravel_eq, ← reached_eq]
  rfl

theorem finishTravel_eq (h : X.Ok c) : ∀ (fuel : Nat) {w : World} (_ : AllFair X c w) (a : Agent),
    finishTravel (X.cfg c) fuel (X.world w) (X.agent a) = (finishTravel c fuel w a).map X.both
  | 0, _, _, _ => rfl
  | fuel + 1, w, hw, a => by
    by_cases ht : a.travelling = true
    · cases hp : a.place with
      | loc i => simp only [finishTravel, agent_travelling, ht, agent_place, hp, if_true]; rfl
      | gone i => simp only [finishTravel, agent_travelling, ht, agent_place, hp, if_true]; rfl
      | link l =>
        rw [finishTravel_link hp ht, finishTravel_link (a := X.agent a) hp ht]
        rw [show todaysSpeed (X.cfg c) ((X.world w).link l) (X.agent a) (X.world w).draw.1 =
          X.lam * todaysSpeed c (w.link l) a w.draw.1 from todaysSpeed_eq _ _ _]
        generalize todaysSpeed c (w.link l) a w.draw.1 = s
        rw [arrival_eq, show reached (X.agent a) (X.lam * s) ((X.world w).link l).dist =
          X.agent (reached a s (w.link l).dist) from reached_eq _ _ _]
        refine Except.ite_map_eq ?_ (fun _ => ?_) fun _ => ?_
        · rw [show (X.agent a).dtol + X.lam * s = X.lam * (a.dtol + s) from (mul_add _ _ _).symm]
          exact mul_lt_mul_iff_right₀ h.pos
        · refine Except.ite_map_eq Iff.rfl (fun _ => ?_) fun _ => ?_
          · exact congrArg Except.ok (X.handleTravel_eq w.draw.2 (reached a s (w.link l).dist) (.loc (w.link l).start) false)
          · refine Except.ite_map_eq (mul_lt_mul_iff_right₀ h.pos) (fun _ => ?_) fun _ => rfl
            have hc : Counters w (arrival w a l s).1 := (Counters.draw w).trans (Counters.handleTravel _ _ _ _)
            have hp := personEvolve_eq h (hw.of (hc.trans (.draw _))).self (arrival w a l s).2
              (forceTownMove c (arrival w a l s).2)
            refine Except.bind_map_eq (g := X.both) ?_ fun r hr => ?_
            · rw [← hp, ← forceTownMove_eq h]
              rfl
            · exact finishTravel_eq h fuel (hw.of (hc.trans (Counters.personEvolve (a' := r.2) hr))) r.2
        · refine congrArg Except.ok ?_
          simp only [both, agent, mul_add]
          rfl
    · simp only [finishTravel, agent_travelling, ht]
      rfl

theorem evolveAll_eq (h : X.Ok c) : ∀ (as : List Agent) {w : World} (_ : AllFair X c w),
    evolveAll (X.cfg c) (X.world w) (as.map X.agent) =
      (evolveAll c w as).map fun r => (X.world r.1, r.2.map X.agent)
  | [], _, _ => rfl
  | a :: as, w, hw => by
    simp only [List.map_cons, evolveAll]
    have e1 : evolveOne (X.cfg c) (X.world w) (X.agent a) = (evolveOne c w a).map X.both := by
      unfold evolveOne
      rw [agent_place]
      cases a.place with
      | gone i => rfl
      | loc i => exact personEvolve_eq h (hw.of (.draw w)).self a false
      | link l => exact personEvolve_eq h (hw.of (.draw w)).self a false
    refine Except.bind_map_eq e1 fun r hr => ?_
    have hc : Counters w r.1 := by
      unfold evolveOne at hr
      split at hr
      · cases Except.ok.inj hr; exact .refl w
      · exact Counters.personEvolve (a' := r.2) hr
    exact Except.bind_map_eq (evolveAll_eq h as (hw.of hc)) fun q _ => rfl

theorem Counters.evolveAll : ∀ {as as' : List Agent} {w w' : World}, evolveAll c w as = .ok (w', as') → Counters w w'
  | [], _, _, _, h => by cases Except.ok.inj h; exact .refl _
  | a :: as, as', w, w', h => by
    simp only [Flee.evolveAll, Except.bind_eq_ok] at h
    obtain ⟨⟨w1, a1⟩, h1, ⟨w2, as2⟩, h2, h⟩ := h
    cases Except.ok.inj h
    refine Counters.trans ?_ (Counters.evolveAll h2)
    unfold evolveOne at h1
    split at h1
    · cases Except.ok.inj h1; exact .refl w
    · exact Counters.personEvolve h1

theorem finishAll_eq (h : X.Ok c) (fuel : Nat) : ∀ (as : List Agent) {w : World} (_ : AllFair X c w),
    finishAll (X.cfg c) fuel (X.world w) (as.map X.agent) =
      (finishAll c fuel w as).map fun r => (X.world r.1, r.2.map X.agent)
  | [], _, _ => rfl
  | a :: as, w, hw => by
    simp only [List.map_cons, finishAll]
    have e1 : finishOne (X.cfg c) fuel (X.world w) (X.agent a) = (finishOne c fuel w a).map X.both := by
      unfold finishOne
      rw [agent_place]
      cases a.place with
      | gone i => rfl
      | loc i => exact Except.bind_map_eq (finishTravel_eq h fuel hw a) fun r _ => rfl
      | link l => exact Except.bind_map_eq (finishTravel_eq h fuel hw a) fun r _ => rfl
    refine Except.bind_map_eq e1 fun r hr => ?_
    have hc : Counters w r.1 := by
      unfold finishOne at hr
      split at hr
      · cases Except.ok.inj hr; exact .refl w
      · simp only [Except.bind_eq_ok] at hr
        obtain ⟨q, h1, h2⟩ := hr
        cases Except.ok.inj h2
        exact Counters.finishTravel (a' := q.2) h1
    exact Except.bind_map_eq (finishAll_eq h fuel as (hw.of hc)) fun q _ => rfl

theorem updateRecent_eq (h : X.Ok c) (a : Agent) : updateRecent (X.cfg c) (X.agent a) = X.agent (updateRecent c a) := by
  simp only [updateRecent, agent, cfg, mul_zero, mul_div_mul_left _ _ h.pos.ne']

theorem sinkOne_eq (w : World) (a : Agent) : sinkOne (X.world w) (X.agent a) = X.both (sinkOne w a) := by
  unfold sinkOne
  refine map_ite_eq X.both Iff.rfl (fun _ => rfl) fun _ => ?_
  rw [agent_place]
  cases a.place with
  | loc i =>
    refine map_ite_eq X.both Iff.rfl (fun _ => ?_) fun _ => rfl
    exact map_ite_eq X.both Iff.rfl (fun _ => rfl) fun _ => rfl
  | link l => rfl
  | gone i => rfl

theorem sinkAll_eq : ∀ (as : List Agent) (w : World),
    sinkAll (X.world w) (as.map X.agent) = (X.world (sinkAll w as).1, (sinkAll w as).2.map X.agent)
  | [], _ => rfl
  | a :: as, w => by
    simp only [List.map_cons, sinkAll, sinkOne_eq]
    rw [show (X.both (sinkOne w a)).1 = X.world (sinkOne w a).1 from rfl, sinkAll_eq as]
    rfl

end travel

end Change

end Flee
