import Verif.Lemmas.Sinks
import Verif.Lemmas.Sample

/-!
C212: deactivation of agents in camps by the file of locations.
-/

namespace Flee

open Spec

/-- Decimal numbers without sign, used in examples. -/
private def digits (s : String) : Option Nat :=
  if s = "" then none
  else s.toList.foldlM (fun k ch => if '0' ≤ ch ∧ ch ≤ '9' then some (10 * k + (ch.toNat - '0'.toNat)) else none) 0

@[inherit_doc digits]
private def nums : Numerals := ⟨fun s => (digits s).map Int.ofNat, fun s => (digits s).map fun k => (k : ℚ)⟩

/-- A conflict zone A and a camp B, with a road of 30; agents are to be deactivated in B with probability 1. -/
private def toCamp : Script where
  c := { campsAreSinks := true }
  r := { sumFromCamps := false }
  n := nums
  scale := 1
  ids := id
  cids := fun k => (2 * k, 2 * k + 1)
  file := false
  geo := {
    columns := some ["name", "region", "country", "lon", "lat", "location_type", "conflict_date", "pop", "deactivation_probability"]
    locations := [["A", "r", "X", "0", "0", "conflict_zone", "0", "100"], ["B", "r", "Y", "0", "0", "camp", "", "50", "1"]]
    links := [["A", "B", "30"]] }
  agentRows := none
  data := { header := ["total", "B"], table := [[(0, 2), (10, 32)], [(0, 0), (10, 9)]] }
  endTime := 2
  idpTotals := false
  fuel := 100

/-- The same, with agents that rarely leave A. -/
private def atHome : Script := { toCamp with c := { toCamp.c with conflictMoveChance := 1 / 100 } }

/-- C212, the full claim: if camps are sinks and the file gives a camp the probability 1, no agent is left in the camp at the end of a
day. False of the code, see `C212_false`. -/
def C212_claim : Prop := ∀ (p : Script) (draws sd : Nat → ℚ) (x : Sim × List (String × Nat) × List Day),
  p.c.campsAreSinks = true → InUnit draws → p.run draws sd = .ok x →
    ∃ s camps ds, p.runSinks draws sd = .ok (s, camps, ds) ∧ ∀ d ∈ ds, ∀ i v, (d.state.e.w.loc i).camp = true →
      Deactivates p.geo i v → p.n.float v = some 1 → ∀ a ∈ d.state.e.agents, a.place ≠ .loc i

/-- C212: as soon as an agent is in a camp about whose deactivation of agents the file says something, the program fails: it
compares a random number with text. -/
theorem C212_raises {p : Script} {draws sd : Nat → ℚ} {s : Sim} {camps : List (String × Nat)} {ds : List Day} (hc : p.c.campsAreSinks = true)
    (h : p.run draws sd = .ok (s, camps, ds)) {d : Day} (hd : d ∈ ds) (ha : AtSink p.geo d) : p.runSinks draws sd = .error .typeError := by
  obtain ⟨e, h1, rfl, h2⟩ := run_parts h
  obtain ⟨e1, -, g1, -⟩ := setup_parts h1
  have g2 := (storeGeo_plain g1).2
  have h3 := daysSinks_ok h2
  rw [if_pos ⟨d, hd, by rw [hc, any_of_atSink g2 ha]; rfl⟩] at h3
  show (p.setup draws >>= _) = _
  rw [h1]
  show (p.daysSinks camps p.endTime 0 _ >>= _) = _
  rw [h3]
  rfl

example : toCamp.c.campsAreSinks = true ∧ ∃ s camps ds d, toCamp.run (fun _ => 1 / 2) (fun _ => 1 / 2) = .ok (s, camps, ds) ∧ d ∈ ds ∧ AtSink toCamp.geo d := by
  refine ⟨rfl, ?_⟩
  have h : (toCamp.run (fun _ => 1 / 2) (fun _ => 1 / 2)).toOption.map (fun x => x.2.2.head?.map fun d =>
    (d.state.e.agents.map (fun a => (a.travelling, a.place)), (d.state.e.w.loc 1).camp)) =
      some (some ([(false, .loc 1), (false, .loc 1)], true)) := by decide +kernel
  obtain ⟨⟨s, camps, ds⟩, h1, h2⟩ := Option.map_eq_some_iff.1 h
  obtain ⟨d, h3, h4⟩ := Option.map_eq_some_iff.1 h2
  obtain ⟨h5, h6⟩ := Prod.mk.inj h4
  refine ⟨s, camps, ds, d, Sample.of_toOption h1, List.mem_of_mem_head? h3, ?_⟩
  cases ha : d.state.e.agents with
  | nil => rw [ha] at h5; cases h5
  | cons a as =>
    rw [ha] at h5
    obtain ⟨h7, -⟩ := List.cons.inj h5
    obtain ⟨h7, h8⟩ := Prod.mk.inj h7
    refine ⟨a, by simp [ha], 1, "1", h7, h8, h6, _, _, rfl, rfl, 8, le_refl _, rfl, rfl, ?_⟩
    intro i h1 h2
    have : i < 9 := h2
    omega

/-- C212 is false of the code: a program that runs when the attribute is not looked at fails. -/
theorem C212_false : ¬ C212_claim := by
  intro h
  obtain ⟨x, hx⟩ : ∃ x, toCamp.run (fun _ => 1 / 2) (fun _ => 1 / 2) = .ok x :=
    (Option.isSome_iff_exists.1 (show (toCamp.run (fun _ => 1 / 2) fun _ => 1 / 2).toOption.isSome = true by decide +kernel)).imp
      fun _ h => Sample.of_toOption h
  obtain ⟨s, camps, ds, h1, -⟩ := h toCamp _ _ x rfl (fun k => by norm_num) hx
  have : (toCamp.runSinks (fun _ => 1 / 2) fun _ => 1 / 2).toOption.isSome = false := by decide +kernel
  rw [h1] at this
  cases this

/-- C212, the part that holds: if camps are no sinks, or no agent ever is in such a camp, the attribute does not matter; and no
error but the one of the comparison comes from the attribute.
Missing from the full claim: that a run in which agents reach such a camp goes on, and that they are deactivated. -/
theorem C212_partial (p : Script) (draws sd : Nat → ℚ) :
    (∀ s camps ds, p.run draws sd = .ok (s, camps, ds) → (p.c.campsAreSinks = true → ∀ d ∈ ds, ¬ AtSink p.geo d) →
      p.runSinks draws sd = .ok (s, camps, ds)) ∧
    ∀ x, p.run draws sd = .error x → p.runSinks draws sd = .error x ∨ p.runSinks draws sd = .error .typeError := by
  constructor
  · intro s camps ds h hn
    obtain ⟨e, h1, rfl, h2⟩ := run_parts h
    have h3 := daysSinks_ok h2
    rw [if_neg] at h3
    · show (p.setup draws >>= _) = _
      rw [h1]
      show (p.daysSinks camps p.endTime 0 _ >>= _) = _
      rw [h3]
      rfl
    · rintro ⟨d, hd, hx⟩
      obtain ⟨h4, h5⟩ := Bool.and_eq_true_iff.1 hx
      exact hn h4 d hd (atSink_of_any h5)
  · intro x h
    have h : (p.setup draws >>= fun y => p.days y.2 p.endTime 0 { e := y.1, d := p.data, draws := sd } >>= fun ds =>
      pure (({ e := y.1, d := p.data, draws := sd } : Sim), y.2, ds)) = .error x := h
    show (p.setup draws >>= fun y => p.daysSinks y.2 p.endTime 0 { e := y.1, d := p.data, draws := sd } >>= fun ds =>
      pure (({ e := y.1, d := p.data, draws := sd } : Sim), y.2, ds)) = _ ∨ (p.setup draws >>= fun y =>
      p.daysSinks y.2 p.endTime 0 { e := y.1, d := p.data, draws := sd } >>= fun ds =>
      pure (({ e := y.1, d := p.data, draws := sd } : Sim), y.2, ds)) = _
    cases h1 : p.setup draws with
    | error y =>
      rw [h1] at h
      cases h
      exact .inl rfl
    | ok y =>
      obtain ⟨e, camps⟩ := y
      rw [h1] at h
      have h : (p.days camps p.endTime 0 { e := e, d := p.data, draws := sd } >>= fun ds =>
        pure (({ e := e, d := p.data, draws := sd } : Sim), camps, ds)) = .error x := h
      show (p.daysSinks camps p.endTime 0 { e := e, d := p.data, draws := sd } >>= fun ds =>
        pure (({ e := e, d := p.data, draws := sd } : Sim), camps, ds)) = _ ∨
        (p.daysSinks camps p.endTime 0 { e := e, d := p.data, draws := sd } >>= fun ds =>
          pure (({ e := e, d := p.data, draws := sd } : Sim), camps, ds)) = _
      cases h2 : p.days camps p.endTime 0 { e := e, d := p.data, draws := sd } with
      | ok ds =>
        rw [h2] at h
        cases h
      | error y =>
        rw [h2] at h
        cases h
        rcases daysSinks_error h2 with g | g
        · rw [g]; exact .inl rfl
        · rw [g]; exact .inr rfl

example : (toCamp.runSinks (fun _ => 1 / 2) (fun _ => 1 / 2)).toOption.isSome = false ∧
    (atHome.runSinks (fun _ => 1 / 2) (fun _ => 1 / 2)).toOption.map (fun x => x.2.2.map fun d => d.state.e.agents.map (·.place)) =
      some [[.loc 0, .loc 0], [.loc 0, .loc 0, .loc 0, .loc 0, .loc 0]] :=
  ⟨by decide +kernel, by decide +kernel⟩

/-- C212: in no run of the program is an agent deactivated, whatever the file says. -/
theorem C212_never {p : Script} {draws sd : Nat → ℚ} (hd : InUnit draws) {s : Sim} {camps : List (String × Nat)} {ds : List Day}
    (h : p.runSinks draws sd = .ok (s, camps, ds)) : ∀ d ∈ ds, ∀ a ∈ d.state.e.agents, ∀ i, a.place ≠ .gone i := by
  have hr : p.run draws sd = .ok (s, camps, ds) := by
    cases hx : p.run draws sd with
    | error x =>
      rcases (C212_partial p draws sd).2 x hx with g | g <;> rw [g] at h <;> cases h
    | ok x =>
      obtain ⟨s', camps', ds'⟩ := x
      by_cases hn : p.c.campsAreSinks = true → ∀ d ∈ ds', ¬ AtSink p.geo d
      · rw [← (C212_partial p draws sd).1 _ _ _ hx hn, h]
      · push Not at hn
        obtain ⟨h1, d, h2, h3⟩ := hn
        rw [C212_raises h1 hx h2 h3] at h
        cases h
  intro d hm
  exact (run_awake (fun k => (hd k).1) hr d hm).agents

example : InUnit (fun _ => 1 / 2) ∧ (atHome.runSinks (fun _ => 1 / 2) (fun _ => 1 / 2)).toOption.map (fun x => x.2.2.map fun d => d.row.total) =
    some [2, 5] := ⟨fun k => by norm_num, by decide +kernel⟩

end Flee
