import Verif.Lemmas.SameRoute
import Verif.Lemmas.Sample

/-!
Agents with fixed routes that travel between the same two places: C227.
-/

namespace Flee

open Spec

/-- C227, the documented statement (docs/Simulation_settings_advanced.md:188): with fixed routes all agents that set out on a day from
one place with the same destination take the same route. `w` is the world at the start of the day and `bs` are the agents after
their decisions. -/
def C227_claim : Prop :=
  ∀ (c : Cfg) (draws : Nat → ℚ) (e : Eco) (w w' : World) (bs : List Agent), c.fixedRoutes = true → Reach c draws e →
    updateScores c e.w = .ok w → evolveAll c w e.agents = .ok (w', bs) →
    ∀ (j k i : Nat) (a a' b b' : Agent) (t t' : List String), e.agents[j]? = some a → e.agents[k]? = some a' → a.place = .loc i →
      a'.place = .loc i → bs[j]? = some b → bs[k]? = some b' → Journey w' b t → Journey w' b' t' → t.getLast? = t'.getLast? → t = t'

/-- C227, for agents that make their plans on that day: they take the same link and have the same stops before them. Missing from the full
claim: agents that spend a night at a place on their way and go on with a plan from an earlier day (`C227_false`). -/
theorem C227_partial {c : Cfg} {draws : Nat → ℚ} {e : Eco} {w w' : World} {bs : List Agent} (hf : c.fixedRoutes = true)
    (hr : Reach c draws e) (hs : updateScores c e.w = .ok w) (h : evolveAll c w e.agents = .ok (w', bs)) {j k i : Nat}
    {a a' b b' : Agent} {t t' : List String} (ha : e.agents[j]? = some a) (ha' : e.agents[k]? = some a') (hp : a.place = .loc i)
    (hp' : a'.place = .loc i) (hn : a.route = []) (hn' : a'.route = []) (hb : bs[j]? = some b) (hb' : bs[k]? = some b')
    (ht : Journey w' b t) (ht' : Journey w' b' t') (he : t.getLast? = t'.getLast?) : t = t' ∧ b.place = b'.place := by
  have hi := reach_inv hr
  have s1 := updateScores_same hs
  have i1 := hi.same s1
  have f := evolveAll_get h i1.travel
  have hcore := (evolveAll_step h i1.travel).core
  have hin : i < e.w.nLoc := by
    have := hi.places a (List.mem_of_getElem? ha)
    rwa [hp] at this
  have hk := updateScores_keyed hin hs
  obtain ⟨x1, g1, v, v', hv, h1⟩ := forall₂_get f ha
  obtain ⟨x2, g2, u, u', hu, h2⟩ := forall₂_get f ha'
  cases hb.symm.trans g1
  cases hb'.symm.trans g2
  obtain ⟨l, rest, hl, hrt, rfl⟩ := ht
  obtain ⟨l', rest', hl', hrt', rfl⟩ := ht'
  obtain ⟨x, x', r, hx, hsel, hfind⟩ := setsOut hp hn hl h1
  obtain ⟨y, y', r', hy, hsel', hfind'⟩ := setsOut hp' hn' hl' h2
  have hname : r = Way.name (w'.loc (w'.link l).endp).name.val := by
    have := List.find?_some hfind
    rw [decide_eq_true_eq] at this
    rw [← this, World.epName, hv.endp, hv.name, hcore.endp, hcore.name]
  have hname' : r' = Way.name (w'.loc (w'.link l').endp).name.val := by
    have := List.find?_some hfind'
    rw [decide_eq_true_eq] at this
    rw [← this, World.epName, hu.endp, hu.name, hcore.endp, hcore.name]
  have e1 : r :: b.route = (((w'.loc (w'.link l).endp).name.val :: rest).map Way.name) := by rw [hname, hrt]; rfl
  have e2 : r' :: b'.route = (((w'.loc (w'.link l').endp).name.val :: rest').map Way.name) := by rw [hname', hrt']; rfl
  have hsame := select_same hf hk (hv.trans hx) (hu.trans hy) hsel hsel' (by rw [e1, e2, way_last, way_last, he])
  have hinj : Function.Injective Way.name := fun _ _ h => Way.name.inj h
  refine ⟨hinj.list_map (by rw [← e1, ← e2, hsame]), ?_⟩
  have hrr : r = r' := (List.cons.inj hsame).1
  subst hrr
  rw [hv.links] at hfind
  rw [hu.links] at hfind'
  have hfun : (fun l => decide (Way.name (u.epName l).val = r)) = fun l => decide (Way.name (v.epName l).val = r) := by
    funext k
    rw [World.epName, World.epName, hu.endp, hu.name, hv.endp, hv.name]
  rw [hfun, hfind] at hfind'
  rw [hl, hl', Option.some.inj hfind']

/-- C227, at any moment of a day, also for agents that arrive at a place and go on from there on the same day: whatever counts of agents
and random numbers there are, two plans from one place to one destination are the same. -/
theorem C227_plan {c : Cfg} {e : Eco} {w v v' u u' : World} {i : Nat} {a a' : Agent} {r r' : List Way} (hf : c.fixedRoutes = true)
    (hi : i < e.w.nLoc) (hs : updateScores c e.w = .ok w) (hv : CoreEq w v) (hv' : CoreEq w v')
    (h : selectRoute c v a i = .ok (some r, u)) (h' : selectRoute c v' a' i = .ok (some r', u')) (he : r.getLast? = r'.getLast?) :
    r = r' :=
  select_same hf (updateScores_keyed hi hs) hv hv' h h' he

private def twoAhead : Cfg := { fixedRoutes := true, awareness := 2 }

private def threeFifths : Nat → ℚ := fun _ => 3 / 5

/-- From A to B there is a long road and a short one through D. -/
private def detour : List Op :=
  [.addLocation { name := ⟨"Z", 0⟩, movechance := 1 }, .addLocation { name := ⟨"A", 1⟩, movechance := 0 },
   .addLocation { name := ⟨"B", 2⟩, movechance := 0 }, .addLocation { name := ⟨"D", 3⟩, movechance := 0 },
   .linkUp "Z" "A" 10 false none 0, .linkUp "A" "B" 100 false none 0, .linkUp "A" "D" 10 false none 0,
   .linkUp "D" "B" 10 false none 0]

/-- An agent on its way from Z to B spends a night at A. The next day a conflict drives everyone away from there. -/
private def overnight : List Op :=
  detour ++ [.addAgent 0 [], .evolve 5, .addConflictZone "A" 1 true, .addAgent 1 []]

/-- A computation succeeds with a result that has a property. -/
private def Gives {α : Type} (x : Except Err α) (P : α → Prop) : Prop :=
  match x with
  | .ok a => P a
  | .error _ => False

private instance {α : Type} (x : Except Err α) (P : α → Prop) [DecidablePred P] : Decidable (Gives x P) := by
  unfold Gives
  split <;> infer_instance

private theorem Gives.get {α : Type} {x : Except Err α} {P : α → Prop} (h : Gives x P) : ∃ a, x = .ok a ∧ P a := by
  unfold Gives at h
  split at h
  · exact ⟨_, rfl, h⟩
  · exact h.elim

/-- The state before the decisions of the next day, and what comes of them. -/
private def Decides (e : Eco) (P : World → List Agent → Prop) : Prop :=
  Gives (updateScores twoAhead e.w) fun w => Gives (evolveAll twoAhead w e.agents) fun r => P r.1 r.2

private instance (e : Eco) (P : World → List Agent → Prop) [∀ w bs, Decidable (P w bs)] : Decidable (Decides e P) := by
  unfold Decides
  infer_instance

private theorem overnight_runs : ∃ e w w' bs, Reach twoAhead threeFifths e ∧ updateScores twoAhead e.w = .ok w ∧
    evolveAll twoAhead w e.agents = .ok (w', bs) ∧ e.agents.map (fun a => (a.place, a.route)) = [(.loc 1, [.name "B"]), (.loc 1, [])] ∧
    bs.map (fun b => (b.place, b.route)) = [(.link 2, []), (.link 4, [.name "B"])] ∧
    (w'.loc (w'.link 2).endp).name.val = "B" ∧ (w'.loc (w'.link 4).endp).name.val = "D" := by
  obtain ⟨e, hr, h0, h⟩ := (show Sample.Ends twoAhead threeFifths overnight
      (fun e => e.agents.map (fun a => (a.place, a.route)) = [(.loc 1, [.name "B"]), (.loc 1, [])] ∧
        Decides e fun w' bs => bs.map (fun b => (b.place, b.route)) = [(.link 2, []), (.link 4, [.name "B"])] ∧
          (w'.loc (w'.link 2).endp).name.val = "B" ∧ (w'.loc (w'.link 4).endp).name.val = "D") by
    decide +kernel).reach (P := fun _ => True) fun _ _ => trivial
  obtain ⟨w, hw, h⟩ := h.get
  obtain ⟨⟨w', bs⟩, hb, h⟩ := h.get
  exact ⟨e, w, w', bs, hr, hw, hb, h0, h⟩

theorem get_pair {α β : Type} {f : α → β} {as : List α} {x y : β} (h : as.map f = [x, y]) :
    ∃ a b, as = [a, b] ∧ f a = x ∧ f b = y := by
  match as, h with
  | [a, b], h =>
    simp only [List.map_cons, List.map_nil, List.cons.injEq, and_true] at h
    exact ⟨a, b, rfl, h.1, h.2⟩

/-- C227 is false as stated: the agent that has spent the night at A goes to B by the long road that it planned two links before, while the
other agent takes the short one. -/
theorem C227_false : ¬ C227_claim := by
  intro h
  obtain ⟨e, w, w', bs, hr, hw, hb, h0, h1, h2, h3⟩ := overnight_runs
  obtain ⟨a, a', ea, pa, pa'⟩ := get_pair h0
  obtain ⟨b, b', eb, pb, pb'⟩ := get_pair h1
  have hJ : Journey w' b ["B"] := ⟨2, [], (congrArg Prod.fst pb :), (congrArg Prod.snd pb :), by rw [h2]⟩
  have hJ' : Journey w' b' ["D", "B"] := ⟨4, ["B"], (congrArg Prod.fst pb' :), (congrArg Prod.snd pb' :), by rw [h3]⟩
  have := h twoAhead threeFifths e w w' bs rfl hr hw hb 0 1 1 a a' b b' ["B"] ["D", "B"] (by rw [ea]; rfl) (by rw [ea]; rfl)
    (congrArg Prod.fst pa :) (congrArg Prod.fst pa' :) (by rw [eb]; rfl) (by rw [eb]; rfl) hJ hJ' rfl
  exact absurd this (by decide)

/-- Two agents that begin their journeys at A on one day go to B by the short road. -/
example : Sample.Ends twoAhead threeFifths (detour ++ [.addConflictZone "A" 1 true, .addAgent 1 [], .addAgent 1 []])
    (fun e => e.agents.map (fun a => (a.place, a.route)) = [(.loc 1, []), (.loc 1, [])] ∧
      Decides e fun _ bs => bs.map (fun b => (b.place, b.route)) = [(.link 4, [.name "B"]), (.link 4, [.name "B"])]) := by
  decide +kernel

/-- Without fixed routes two agents take different roads from A to B on one day. -/
example : Sample.Ends { awareness := 2 } (fun n => if n % 2 = 0 then 0 else if n = 1 then 7 / 20 else 9 / 10)
    (detour ++ [.addConflictZone "A" 1 true, .addAgent 1 [], .addAgent 1 []])
    (fun e => Gives (evolveAll { awareness := 2 } e.w e.agents) fun r =>
      r.2.map (fun b => (b.place, b.route)) = [(.link 2, []), (.link 4, [.name "B"])]) := by
  decide +kernel

end Flee
