import Verif.Spec.Preferences
import Verif.Lemmas.Flood
import Verif.Lemmas.Sample
import Mathlib.Tactic.Ring
import Mathlib.Tactic.Linarith
import Mathlib.Tactic.NormNum

/-!
Preferences of agents between destinations: C91 to C96.
-/

namespace Flee

open Spec

theorem endPointScore_iff {c : Cfg} {w : World} {a : Agent} {l : Loc} {p : ℚ} : c.endPointScore w a l = .ok p ↔
    ∃ s h f k, personalScore c a l.score = .ok s ∧ homeFactor c w a l = .ok h ∧ floodFactor c a l w.time = .ok f ∧
      kindFactor c l = .ok k ∧ p = s * h * f * k := by
  simp only [Cfg.endPointScore, Except.bind_eq_ok, Except.pure_eq_ok]
  constructor
  · rintro ⟨s, h1, h, h2, f, h3, k, h4, rfl⟩
    exact ⟨s, h, f, k, h1, h2, h3, h4, rfl⟩
  · rintro ⟨s, h, f, k, h1, h2, h3, h4, rfl⟩
    exact ⟨s, h1, h, h2, f, h3, k, h4, rfl⟩

/-! ### C91 -/

/-- C91, full claim: of two destinations that are equally attractive otherwise, an agent that stays close to home prefers the
one nearer to its home. -/
def C91_claim : Prop := ∀ (c : Cfg) (draws : Nat → ℚ) (e : Eco) (a : Agent) (i j : Nat) (u s t : ℚ), Reach c draws e →
  a ∈ e.agents → c.stayCloseToHome = true → Grows c.homePow → i < e.w.nLoc → j < e.w.nLoc →
  (noHome c).endPointScore e.w a (e.w.loc i) = .ok u → (noHome c).endPointScore e.w a (e.w.loc j) = .ok u → 0 < u →
  homeDistance c e.w a (e.w.loc i) < homeDistance c e.w a (e.w.loc j) → 1 < homeDistance c e.w a (e.w.loc j) →
  c.endPointScore e.w a (e.w.loc i) = .ok s → c.endPointScore e.w a (e.w.loc j) = .ok t → t < s

/-- Places on a line: home, a place at 100 that nobody leaves, and two towns at 10 and 90. -/
private def line : List Op :=
  [.addLocation { name := ⟨"H", 0⟩ }, .addLocation { name := ⟨"C", 1⟩, movechance := 0, x := 100 }, .addLocation { name := ⟨"N", 2⟩, x := 10 },
   .addLocation { name := ⟨"F", 3⟩, x := 90 }, .linkUp "H" "C" 300 false none 0, .addAgent 0 []]

private def lineCfg : Cfg := { stayCloseToHome := true, geoDist := fun p q => if p.2 < q.2 then q.2 - p.2 else p.2 - q.2 }

/-- C91 is false: away from home an agent prefers what is near to where it is. -/
theorem C91_home_false : ¬ C91_claim := by
  intro h
  obtain ⟨e, he, h1⟩ := (show Sample.Ends lineCfg Sample.zeros (line ++ [.evolve 5]) (fun e => e.w.nLoc = 4 ∧
    ∃ a ∈ e.agents, (noHome lineCfg).endPointScore e.w a (e.w.loc 2) = .ok 1 ∧
      (noHome lineCfg).endPointScore e.w a (e.w.loc 3) = .ok 1 ∧
      homeDistance lineCfg e.w a (e.w.loc 2) = 10 ∧ homeDistance lineCfg e.w a (e.w.loc 3) = 90 ∧
      lineCfg.endPointScore e.w a (e.w.loc 2) = .ok (1 / 90) ∧ lineCfg.endPointScore e.w a (e.w.loc 3) = .ok (1 / 10)) by
    decide +kernel).reach (P := fun _ => True) fun _ _ => trivial
  obtain ⟨hn, a, ha, h2, h3, h4, h5, h6, h7⟩ := h1
  have := h lineCfg Sample.zeros e a 2 3 1 (1 / 90) (1 / 10) he ha rfl
    (fun x y hx hy => ⟨lt_of_lt_of_le one_pos hx, hy⟩) (by omega) (by omega) h2 h3 one_pos (by rw [h4, h5]; norm_num)
    (by rw [h5]; norm_num) h6 h7
  norm_num at this

theorem homeFactor_off (c : Cfg) (w : World) (a : Agent) (l : Loc) : homeFactor (noHome c) w a l = .ok 1 := by
  simp [homeFactor, noHome]

/-- How the preference for destinations near home enters the score of an agent at its home. -/
theorem home_score {c : Cfg} {w : World} {a : Agent} {l : Loc} {u s : ℚ} (hc : c.stayCloseToHome = true)
    (hh : a.place = .loc a.home) (hu : (noHome c).endPointScore w a l = .ok u) (hs : c.endPointScore w a l = .ok s) :
    s = u / c.homePow (max 1 (homeDistance c w a l)) := by
  rw [endPointScore_iff] at hu hs
  obtain ⟨s1, h1, f1, k1, a1, b1, c1, d1, rfl⟩ := hu
  obtain ⟨s2, h2, f2, k2, a2, b2, c2, d2, rfl⟩ := hs
  obtain rfl := Except.ok.inj ((show personalScore c a l.score = .ok s1 from a1).symm.trans a2)
  obtain rfl := Except.ok.inj ((show floodFactor c a l w.time = .ok f1 from c1).symm.trans c2)
  obtain rfl := Except.ok.inj ((show kindFactor c l = .ok k1 from d1).symm.trans d2)
  rw [homeFactor_off] at b1
  obtain rfl := Except.ok.inj b1
  simp only [homeFactor, hc, if_true, hh, World.coords, Except.bind_eq_ok, Except.ok.injEq, exists_eq_left'] at b2
  split at b2
  · cases b2
  · obtain rfl := Except.ok.inj b2
    unfold homeDistance
    ring

/-- C91 for an agent at its home. Missing from the full claim: agents elsewhere, whose distances are taken from where they are
(`C91_home_false`). -/
theorem C91_home_partial {c : Cfg} {w : World} {a : Agent} {l m : Loc} {u s t : ℚ} (hc : c.stayCloseToHome = true)
    (hg : Grows c.homePow) (hh : a.place = .loc a.home) (hl : (noHome c).endPointScore w a l = .ok u)
    (hm : (noHome c).endPointScore w a m = .ok u) (hu : 0 < u)
    (hd : homeDistance c w a l < homeDistance c w a m) (h1 : 1 < homeDistance c w a m)
    (hs : c.endPointScore w a l = .ok s) (ht : c.endPointScore w a m = .ok t) : t < s := by
  rw [home_score hc hh hl hs, home_score hc hh hm ht]
  have := hg (max 1 (homeDistance c w a l)) (max 1 (homeDistance c w a m)) (le_max_left _ _) (by
    rw [max_eq_right h1.le]
    exact max_lt h1 hd)
  exact div_lt_div_of_pos_left hu this.1 this.2

/-- An agent that has not moved yet, with two towns at different distances. -/
example : ∃ e a, Reach lineCfg Sample.zeros e ∧ a ∈ e.agents ∧ a.place = .loc a.home ∧
    (noHome lineCfg).endPointScore e.w a (e.w.loc 2) = .ok 1 ∧ (noHome lineCfg).endPointScore e.w a (e.w.loc 3) = .ok 1 ∧
    homeDistance lineCfg e.w a (e.w.loc 2) < homeDistance lineCfg e.w a (e.w.loc 3) ∧
    1 < homeDistance lineCfg e.w a (e.w.loc 3) ∧ Grows lineCfg.homePow ∧
    lineCfg.endPointScore e.w a (e.w.loc 2) = .ok (1 / 10) ∧ lineCfg.endPointScore e.w a (e.w.loc 3) = .ok (1 / 90) := by
  obtain ⟨e, he, a, ha, h1, h2, h3, h4, h5, h6, h7⟩ := (show Sample.Ends lineCfg Sample.zeros line (fun e =>
    ∃ a ∈ e.agents, a.place = .loc a.home ∧ (noHome lineCfg).endPointScore e.w a (e.w.loc 2) = .ok 1 ∧
      (noHome lineCfg).endPointScore e.w a (e.w.loc 3) = .ok 1 ∧
      homeDistance lineCfg e.w a (e.w.loc 2) = 10 ∧ homeDistance lineCfg e.w a (e.w.loc 3) = 90 ∧
      lineCfg.endPointScore e.w a (e.w.loc 2) = .ok (1 / 10) ∧ lineCfg.endPointScore e.w a (e.w.loc 3) = .ok (1 / 90)) by
    decide +kernel).reach (P := fun _ => True) fun _ _ => trivial
  exact ⟨e, a, he, ha, h1, h2, h3, by rw [h4, h5]; norm_num, by rw [h5]; norm_num,
    fun x y hx hy => ⟨lt_of_lt_of_le one_pos hx, hy⟩, h6, h7⟩

/-! ### C92 -/

/-- C92, full claim: with population as a weight the score of a destination that is not a camp is multiplied with its
population to the power from the settings. -/
def C92_claim : Prop := ∀ (c : Cfg) (draws : Nat → ℚ) (e : Eco) (a : Agent) (i : Nat) (s : ℚ), Reach c draws e →
  a ∈ e.agents → i < e.w.nLoc → c.usePopForLocWeight = true → (e.w.loc i).camp = false →
  (noPop c).endPointScore e.w a (e.w.loc i) = .ok s →
  c.endPointScore e.w a (e.w.loc i) = .ok (s * c.popPow (e.w.loc i).pop)

private def popCfg : Cfg := { usePopForLocWeight := true }

private def bigTown : List Op := [.addLocation { name := ⟨"A", 0⟩, pop := 2 }, .addAgent 0 []]

/-- C92 is false: a population above 1 counts as 1. -/
theorem C92_population_false : ¬ C92_claim := by
  intro h
  obtain ⟨e, he, hn, a, ha, h1, h2, h3, h4⟩ := (show Sample.Ends popCfg Sample.zeros bigTown (fun e => e.w.nLoc = 1 ∧
    ∃ a ∈ e.agents, (e.w.loc 0).camp = false ∧ (noPop popCfg).endPointScore e.w a (e.w.loc 0) = .ok 1 ∧
      popCfg.endPointScore e.w a (e.w.loc 0) = .ok 1 ∧ (e.w.loc 0).pop = 2) by
    decide +kernel).reach (P := fun _ => True) fun _ _ => trivial
  have := h popCfg Sample.zeros e a 0 1 he ha (by omega) rfl h1 h2
  rw [h3, h4] at this
  have := Except.ok.inj this
  norm_num [popCfg] at this

theorem kindFactor_noPop {c : Cfg} {l : Loc} {k : ℚ} (hp : c.usePopForLocWeight = true) (hc : l.camp = false)
    (h : kindFactor (noPop c) l = .ok k) : k = 1 ∧ kindFactor c l = .ok (c.popPow (min 1 (l.pop : ℚ))) := by
  simp only [kindFactor, noPop, hc, popFactor, hp, Bool.false_eq_true, if_false, if_true] at h ⊢
  split at h <;> rename_i h0
  · split at h <;> rename_i h1
    · cases h
    · exact ⟨(Except.ok.inj h).symm, by rw [if_pos h0, if_neg h1]⟩
  · split at h <;> rename_i h1
    · cases h
    · exact ⟨(Except.ok.inj h).symm, by rw [if_neg h0, if_neg h1]⟩

/-- C92 for populations of at most 1. Missing from the full claim: larger populations, which count as 1 (`C92_population_false`,
`C92_no_effect`). -/
theorem C92_population_partial {c : Cfg} {w : World} {a : Agent} {l : Loc} {s : ℚ} (hp : c.usePopForLocWeight = true)
    (hc : l.camp = false) (h1 : l.pop ≤ 1) (h : (noPop c).endPointScore w a l = .ok s) :
    c.endPointScore w a l = .ok (s * c.popPow l.pop) := by
  rw [endPointScore_iff] at h ⊢
  obtain ⟨s1, h1', f1, k1, a1, b1, c1, d1, rfl⟩ := h
  obtain ⟨rfl, hk⟩ := kindFactor_noPop hp hc d1
  rw [min_eq_right (by exact_mod_cast h1)] at hk
  exact ⟨s1, h1', f1, _, a1, b1, c1, hk, by ring⟩

/-- C92, what the code does for all other populations: the rule has no effect, whatever the power. -/
theorem C92_no_effect {c : Cfg} {w : World} {a : Agent} {l : Loc} {s : ℚ} (hp : c.usePopForLocWeight = true)
    (h1 : 1 ≤ l.pop) (hone : c.popPow 1 = 1) (h : (noPop c).endPointScore w a l = .ok s) :
    c.endPointScore w a l = .ok s := by
  rw [endPointScore_iff] at h ⊢
  obtain ⟨s1, h1', f1, k1, a1, b1, c1, d1, rfl⟩ := h
  cases hc : l.camp with
  | true =>
    refine ⟨s1, h1', f1, k1, a1, b1, c1, ?_, rfl⟩
    rw [← d1]
    simp only [kindFactor, hc, if_true]
    rfl
  | false =>
    obtain ⟨rfl, hk⟩ := kindFactor_noPop hp hc d1
    rw [min_eq_left (by exact_mod_cast h1), hone] at hk
    exact ⟨s1, h1', f1, _, a1, b1, c1, hk, rfl⟩

example : (noPop popCfg).endPointScore (Eco.empty Sample.zeros).w { place := .loc 0, home := 0 } { name := ⟨"A", 0⟩, pop := 0 } =
    .ok 1 := by decide +kernel

example : popCfg.popPow 1 = 1 ∧ (noPop popCfg).endPointScore (Eco.empty Sample.zeros).w { place := .loc 0, home := 0 }
    { name := ⟨"A", 0⟩, pop := 1000 } = .ok 1 := ⟨rfl, by decide +kernel⟩

/-! ### C93 -/

/-- C93, full claim: children weigh the safety of a destination twice and teenage boys not at all, if the settings say so;
everybody else is not affected by these rules. -/
def C93_claim : Prop := ∀ (c : Cfg) (w : World) (a : Agent) (l : Loc) (age : ℚ) (gender : String) (r : ℚ),
  AgeGender c a age gender → Perceives c age gender l.score r →
  c.endPointScore w a l = (noAge c).endPointScore w a { l with score := r }

private def ageCfg : Cfg := { childrenAvoidHazards := true, boysTakeRisk := true,
                              numOf := fun s => if s = "40" then some 40 else if s = "16" then some 16 else none }

private def person (age gender : String) : Agent := { place := .loc 0, home := 0, attrs := [("age", age), ("gender", gender)] }

/-- C93 is false: a man of 40 years is treated like a boy. -/
theorem C93_age_false : ¬ C93_claim := by
  intro h
  have := congrArg Except.toOption (h ageCfg (Eco.empty Sample.zeros).w (person "40" "male") { name := ⟨"A", 0⟩, score := 2 } 40
    "male" 2 ⟨⟨"40", rfl, rfl⟩, rfl⟩ (by unfold Perceives; norm_num [ageCfg]))
  revert this
  decide +kernel

/-- C93 except for men from 19 on when both rules are on, and for boys when the rule for children is off. Missing from the full
claim: these (`C93_age_false`, `C93_rules_off`). -/
theorem C93_age_partial {c : Cfg} {w : World} {a : Agent} {l : Loc} {age : ℚ} {gender : String} {r : ℚ}
    (hag : AgeGender c a age gender) (hr : Perceives c age gender l.score r)
    (hm : c.boysTakeRisk = false ∨ gender ≠ "male" ∨ age ≤ 14 ∨ (c.childrenAvoidHazards = true ∧ age < 19) ∨
      (c.childrenAvoidHazards = false ∧ 19 ≤ age)) :
    c.endPointScore w a l = (noAge c).endPointScore w a { l with score := r } := by
  obtain ⟨⟨s, h1, h2⟩, h3⟩ := hag
  have hn : numAttribute c a "age" .typeError = .ok age := numAttribute_lookup.2 ⟨s, h1, h2⟩
  have hg : a.attr "gender" = .ok gender := attr_lookup.2 h3
  have key : personalScore c a l.score = .ok r := by
    unfold Perceives at hr
    unfold personalScore
    cases hch : c.childrenAvoidHazards with
    | false =>
      rw [if_neg (by simp)]
      rw [if_neg, if_neg (by simp [hch])] at hr
      · rw [hr]
      · rintro ⟨g1, g2, g3, g4⟩
        rcases hm with hm | hm | hm | hm | hm
        · simp [g1] at hm
        · exact hm g2
        · linarith
        · simp [hch] at hm
        · linarith [hm.2]
    | true =>
      rw [if_pos rfl]
      simp only [childScore, hn, hch, true_and] at hr ⊢
      cases hb : c.boysTakeRisk with
      | false =>
        rw [if_neg (by simp [hb])] at hr
        show Except.ok _ = _
        split at hr <;> rename_i h <;> simp [h, hr]
      | true =>
        show boyScore c a _ = _
        simp only [boyScore, hg, hb, true_and] at hr ⊢
        show (if gender = "male" then _ else _) = _
        by_cases hmale : gender = "male"
        · rw [if_pos hmale, hn]
          show Except.ok _ = _
          by_cases h14 : age > 14
          · have h19 : age < 19 := by
              rcases hm with hm | hm | hm | hm | hm
              · simp [hb] at hm
              · exact absurd hmale hm
              · linarith
              · exact hm.2
              · simp [hch] at hm
            rw [if_pos ⟨hmale, h14, h19⟩] at hr
            rw [if_pos h14, hr]
          · rw [if_neg (fun h => h14 h.2.1)] at hr
            rw [if_neg h14]
            split at hr <;> rename_i h <;> simp [h, hr]
        · rw [if_neg hmale]
          rw [if_neg (fun h => hmale h.1)] at hr
          show Except.ok _ = _
          split at hr <;> rename_i h <;> simp [h, hr]
  have key' : personalScore (noAge c) a r = .ok r := by simp [personalScore, noAge]
  unfold Cfg.endPointScore
  rw [key, show personalScore (noAge c) a ({ l with score := r } : Loc).score = .ok r from key']
  rfl

/-- C93, what the code does when the rule for children is off: nothing, even for boys that take risks. -/
theorem C93_rules_off {c : Cfg} {w : World} {a : Agent} {l : Loc} (hc : c.childrenAvoidHazards = false) :
    c.endPointScore w a l = (noAge { c with boysTakeRisk := false }).endPointScore w a l := by
  have h1 : personalScore c a l.score = .ok l.score := by simp [personalScore, hc]
  have h2 : personalScore (noAge { c with boysTakeRisk := false }) a l.score = .ok l.score := by simp [personalScore, noAge]
  unfold Cfg.endPointScore
  rw [h1, h2]
  rfl

example : AgeGender ageCfg (person "16" "male") 16 "male" ∧ Perceives ageCfg 16 "male" 2 1 ∧
    AgeGender ageCfg (person "16" "female") 16 "female" ∧ Perceives ageCfg 16 "female" 2 4 := by
  refine ⟨⟨⟨"16", rfl, rfl⟩, rfl⟩, ?_, ⟨⟨"16", rfl, rfl⟩, rfl⟩, ?_⟩ <;> unfold Perceives
  · norm_num [ageCfg]
  · rw [if_neg (by simp), if_pos ⟨rfl, by norm_num⟩]
    norm_num

/-! ### C94 -/

/-- C94, full claim: agents with an ethnicity can choose between destinations when ethnicities are matched. -/
def C94_claim : Prop := ∀ (c : Cfg) (draws : Nat → ℚ) (e : Eco) (a : Agent) (i : Nat) (s : ℚ) (x : String), Reach c draws e →
  a ∈ e.agents → i < e.w.nLoc → a.attrs.lookup "ethnicity" = some x →
  (noEthnicity c).endPointScore e.w a (e.w.loc i) = .ok s → ∃ t, c.endPointScore e.w a (e.w.loc i) = .ok t

/-- C94 is false: matching raises. -/
theorem C94_ethnicity_false : ¬ C94_claim := by
  intro h
  obtain ⟨e, he, hn, a, ha, h1, h2, h3⟩ := (show Sample.Ends { matchTownEthnicity := true } Sample.zeros
    [.addLocation { name := ⟨"A", 0⟩ }, .addAgent 0 [("ethnicity", "x")]] (fun e => e.w.nLoc = 1 ∧
    ∃ a ∈ e.agents, a.attrs.lookup "ethnicity" = some "x" ∧
      (noEthnicity { matchTownEthnicity := true }).endPointScore e.w a (e.w.loc 0) = .ok 1 ∧
      (({ matchTownEthnicity := true } : Cfg).endPointScore e.w a (e.w.loc 0)).toOption = none) by
    decide +kernel).reach (P := fun _ => True) fun _ _ => trivial
  obtain ⟨t, ht⟩ := h { matchTownEthnicity := true } Sample.zeros e a 0 1 "x" he ha (by omega) h1 h2
  rw [ht] at h3
  cases h3

/-- C94 for destinations of a kind for which ethnicities are not matched: the rules for the other kinds have no effect. Missing
from the full claim: the kinds for which they are matched, where every choice raises (`C94_ethnicity_false`,
`C94_always_raises`). -/
theorem C94_ethnicity_partial {c : Cfg} {w : World} {a : Agent} {l : Loc} (h1 : l.camp = true → c.matchCampEthnicity = false)
    (h2 : l.camp = false → 0 < l.conflict → c.matchConflictEthnicity = false)
    (h3 : l.camp = false → l.conflict ≤ 0 → c.matchTownEthnicity = false) :
    c.endPointScore w a l = (noEthnicity c).endPointScore w a l := by
  have : kindFactor c l = kindFactor (noEthnicity c) l := by
    unfold kindFactor noEthnicity
    cases hc : l.camp with
    | true => simp [h1 hc]
    | false =>
      by_cases h : l.conflict > 0
      · simp only [h, h2 hc h]
        rfl
      · simp only [h, h3 hc (not_lt.1 h)]
        rfl
  unfold Cfg.endPointScore
  rw [this]
  rfl

/-- C94, what the code does for the kinds for which ethnicities are matched. -/
theorem C94_always_raises {c : Cfg} {w : World} {a : Agent} {l : Loc}
    (h : (l.camp = true ∧ c.matchCampEthnicity = true) ∨ (l.camp = false ∧ 0 < l.conflict ∧ c.matchConflictEthnicity = true) ∨
      (l.camp = false ∧ l.conflict ≤ 0 ∧ c.matchTownEthnicity = true)) (s : ℚ) : c.endPointScore w a l ≠ .ok s := by
  rw [Ne, endPointScore_iff]
  rintro ⟨s1, h1, f1, k1, -, -, -, d1, -⟩
  unfold kindFactor at d1
  rcases h with ⟨g1, g2⟩ | ⟨g1, g2, g3⟩ | ⟨g1, g2, g3⟩
  · simp [g1, g2] at d1
  · simp [g1, g2, g3] at d1
  · simp [g1, not_lt.2 g2, g3] at d1

example : ∃ (c : Cfg) (l : Loc), c.matchCampEthnicity = true ∧ l.camp = false ∧ l.conflict ≤ 0 ∧ c.matchTownEthnicity = false :=
  ⟨{ matchCampEthnicity := true }, { name := ⟨"A", 0⟩ }, rfl, rfl, by norm_num, rfl⟩

example : ∃ (c : Cfg) (l : Loc), l.camp = true ∧ c.matchCampEthnicity = true :=
  ⟨{ matchCampEthnicity := true }, { name := ⟨"A", 0⟩, camp := true }, rfl, rfl⟩

/-! ### C95 -/

/-- C95, full claim: a forecast in use multiplies the score of a destination with its mean over the timescale and with the
awareness of the agent. -/
def C95_claim : Prop := ∀ (c : Cfg) (w : World) (a : Agent) (l : Loc) (p p₀ s k : ℚ), c.flood.enabled = true →
  ForecastInUse c.flood w.time → (noForecast c).endPointScore w a l = .ok p₀ → c.endPointScore w a l = .ok p →
  Forecast c.flood l w.time s → Awareness c a k → p = p₀ * (s / c.flood.timescale * k)

theorem forecast_score {c : Cfg} {w : World} {a : Agent} {l : Loc} {p p₀ : ℚ} (hfl : c.flood.enabled = true)
    (h₀ : (noForecast c).endPointScore w a l = .ok p₀) (h : c.endPointScore w a l = .ok p) :
    ∃ y, forecastFactor c a l w.time = .ok y ∧ p = p₀ * y := by
  rw [endPointScore_iff] at h₀ h
  obtain ⟨s1, h1, f1, k1, a1, b1, c1, d1, rfl⟩ := h₀
  obtain ⟨s2, h2, f2, k2, a2, b2, c2, d2, rfl⟩ := h
  obtain rfl := Except.ok.inj ((show personalScore c a l.score = .ok s1 from a1).symm.trans a2)
  obtain rfl := Except.ok.inj ((show homeFactor c w a l = .ok h1 from b1).symm.trans b2)
  obtain rfl := Except.ok.inj ((show kindFactor c l = .ok k1 from d1).symm.trans d2)
  have hoff : forecastFactor (noForecast c) a l w.time = .ok 1 := by simp [forecastFactor, noForecast, FloodCfg.active]
  have hlev : levelFactor (noForecast c).flood l = levelFactor c.flood l := rfl
  simp only [floodFactor, show (noForecast c).flood.enabled = true from hfl, hfl, if_true, hoff, hlev, Except.bind_eq_ok,
    Except.pure_eq_ok] at c1 c2
  obtain ⟨x, hx, y, hy, rfl⟩ := c1
  obtain ⟨x', hx', y', hy', rfl⟩ := c2
  obtain rfl := Except.ok.inj (hx.symm.trans hx')
  obtain rfl := Except.ok.inj hy
  exact ⟨y', hy', by ring⟩

theorem forecastFactor_ok {c : Cfg} {a : Agent} {l : Loc} {t : Nat} {y : ℚ} (hu : ForecastInUse c.flood t)
    (h : forecastFactor c a l t = .ok y) : ∃ s k, Forecast c.flood l t s ∧ Awareness c a k ∧
      y = s * (s / c.flood.timescale) * k := by
  simp only [forecastFactor, active_iff.2 hu, if_true, Except.bind_eq_ok, Except.pure_eq_ok] at h
  obtain ⟨k, hk, s, hs, rfl⟩ := h
  exact ⟨s, k, (forecastSum_forecast hu).1 hs, awarenessWeight_iff.1 hk, rfl⟩

/-- C95 with the mean multiplied once more with the sum of the forecast. Missing from the full claim: it holds without this
factor only where the sum is 0 or 1 (`C95_mean_false`). -/
theorem C95_mean_partial {c : Cfg} {w : World} {a : Agent} {l : Loc} {p p₀ : ℚ} (hfl : c.flood.enabled = true)
    (hu : ForecastInUse c.flood w.time) (h₀ : (noForecast c).endPointScore w a l = .ok p₀) (h : c.endPointScore w a l = .ok p) :
    ∃ s k, Forecast c.flood l w.time s ∧ Awareness c a k ∧ p = p₀ * (s / c.flood.timescale * k) * s := by
  obtain ⟨y, hy, rfl⟩ := forecast_score hfl h₀ h
  obtain ⟨s, k, h1, h2, rfl⟩ := forecastFactor_ok hu hy
  exact ⟨s, k, h1, h2, by ring⟩

private def expectCfg : Cfg where
  flood := { enabled := true, forecaster := true, timescale := 2, endTime := 5, awarenessWeights := some [1],
             locWeights := some [1, 1], forecasterWeights := some [1, 1 / 2, 1 / 4, 1 / 8] }
  numOf := fun _ => some 0

private def expectAgent : Agent := { place := .loc 0, home := 0, attrs := [("floodawareness", "0")] }

private def expectLoc (levels : List Int) : Loc := { name := ⟨"A", 0⟩, forecast := some levels }

private theorem expect_forecast : Forecast expectCfg.flood (expectLoc [0, 1, 0]) 0 (1 / 2) := by
  have hd : forecastDays expectCfg.flood 0 = {1, 2} := by decide
  refine ⟨[0, 1, 0], rfl, fun d => if d = 1 then 1 / 2 else 0, ?_, ?_⟩
  · intro d hdm
    rw [hd, Finset.mem_insert, Finset.mem_singleton] at hdm
    rcases hdm with rfl | rfl
    · exact ⟨1, ⟨1, rfl, .inl rfl⟩, .inr ⟨by decide, 1, 1 / 2, ⟨_, rfl, 1, rfl, .inl rfl⟩, ⟨_, rfl, 1, rfl, .inl rfl⟩, by norm_num⟩⟩
    · exact ⟨0, ⟨2, rfl, .inl rfl⟩, .inl ⟨le_refl _, by norm_num⟩⟩
  · rw [hd, Finset.sum_pair (by decide)]
    norm_num

private theorem expect_in_use : ForecastInUse expectCfg.flood 0 := ⟨rfl, by decide, by decide⟩

private theorem expect_aware : Awareness expectCfg expectAgent 1 := ⟨"0", 0, rfl, rfl, [1], rfl, 0, rfl, .inl rfl⟩

private theorem expect_scores (levels : List Int) : (noForecast expectCfg).endPointScore (Eco.empty Sample.zeros).w expectAgent
    (expectLoc levels) = .ok 1 := by
  have h1 : homeFactor (noForecast expectCfg) (Eco.empty Sample.zeros).w expectAgent (expectLoc levels) = .ok 1 := rfl
  have h2 : floodFactor (noForecast expectCfg) expectAgent (expectLoc levels) 0 = .ok (1 * 1) := rfl
  have h3 : kindFactor (noForecast expectCfg) (expectLoc levels) = .ok 1 := by
    simp [kindFactor, expectLoc, popFactor, noForecast, expectCfg]
  exact endPointScore_iff.2 ⟨1, 1, _, 1, rfl, h1, h2, h3, by norm_num⟩

/-- C95 is false: a forecast with sum 1/2 over two days gives the factor 1/8, not 1/4. -/
theorem C95_mean_false : ¬ C95_claim := by
  intro h
  have := h expectCfg (Eco.empty Sample.zeros).w expectAgent (expectLoc [0, 1, 0]) (1 / 8) 1 (1 / 2) 1 rfl expect_in_use
    (expect_scores _) (Sample.of_toOption (by decide +kernel)) expect_forecast expect_aware
  norm_num [expectCfg] at this

example : expectCfg.flood.enabled = true ∧ ForecastInUse expectCfg.flood 0 ∧
    expectCfg.endPointScore (Eco.empty Sample.zeros).w expectAgent (expectLoc [0, 1, 0]) = .ok (1 / 8) :=
  ⟨rfl, expect_in_use, Sample.of_toOption (by decide +kernel)⟩

/-! ### C96 -/

/-- C96, full claim: a forecast that expects no flood at a destination leaves its score as it is without a forecast. -/
def C96_claim : Prop := ∀ (c : Cfg) (w : World) (a : Agent) (l : Loc) (levels : List Int) (p p₀ : ℚ), l.forecast = some levels →
  (∀ d ∈ forecastDays c.flood w.time, ∀ v, Entry levels d v → v ≤ 0) → (noForecast c).endPointScore w a l = .ok p₀ →
  c.endPointScore w a l = .ok p → p = p₀

private theorem expect_dry : ∀ d ∈ forecastDays expectCfg.flood 0, ∀ v : Int, Entry [0, 0, 0] d v → v ≤ 0 := by
  rintro d - v ⟨j, hj, -⟩
  have := List.mem_of_getElem? hj
  simp at this
  omega

/-- C96 is false. -/
theorem C96_no_flood_false : ¬ C96_claim := by
  intro h
  have := h expectCfg (Eco.empty Sample.zeros).w expectAgent (expectLoc [0, 0, 0]) [0, 0, 0] 0 1 rfl expect_dry
    (expect_scores _) (Sample.of_toOption (by decide +kernel))
  norm_num at this

/-- C96 while no forecast is in use. Missing from the full claim: a forecast in use (`C96_no_flood_false`, `C96_score_zero`). -/
theorem C96_no_flood_partial {c : Cfg} {w : World} {a : Agent} {l : Loc} (hu : ¬ ForecastInUse c.flood w.time) :
    c.endPointScore w a l = (noForecast c).endPointScore w a l := by
  have h1 : c.flood.active w.time = false := by rw [← Bool.not_eq_true, active_iff]; exact hu
  have h2 : (noForecast c).flood.active w.time = false := by simp [noForecast, FloodCfg.active]
  have : floodFactor c a l w.time = floodFactor (noForecast c) a l w.time := by
    simp only [floodFactor, forecastFactor, h1, h2]
    rfl
  unfold Cfg.endPointScore
  rw [this]
  rfl

/-- C96, what the code does with a forecast in use: where no flood is expected the score is 0, so that a destination is chosen
for being under water soon. -/
theorem C96_score_zero {c : Cfg} {w : World} {a : Agent} {l : Loc} {levels : List Int} {p : ℚ} (hfl : c.flood.enabled = true)
    (hu : ForecastInUse c.flood w.time) (hl : l.forecast = some levels)
    (hno : ∀ d ∈ forecastDays c.flood w.time, ∀ v, Entry levels d v → v ≤ 0) (h : c.endPointScore w a l = .ok p) : p = 0 := by
  rw [endPointScore_iff] at h
  obtain ⟨s2, h2, f2, k2, a2, b2, c2, d2, rfl⟩ := h
  simp only [floodFactor, hfl, if_true, Except.bind_eq_ok, Except.pure_eq_ok] at c2
  obtain ⟨x, -, y, hy, rfl⟩ := c2
  obtain ⟨s, k, ⟨levels', hl', v, hv, rfl⟩, -, rfl⟩ := forecastFactor_ok hu hy
  rw [hl, Option.some.injEq] at hl'
  subst hl'
  rw [Finset.sum_eq_zero fun d hd => ?_]
  · ring
  · obtain ⟨u, hu', ⟨-, h⟩ | ⟨h, -⟩⟩ := hv d hd
    · exact h
    · exact absurd h (not_lt.2 (hno d hd u hu'))

example : ¬ ForecastInUse expectCfg.flood 6 ∧ ForecastInUse expectCfg.flood 0 ∧
    (∀ d ∈ forecastDays expectCfg.flood 0, ∀ v : Int, Entry [0, 0, 0] d v → v ≤ 0) ∧
    expectCfg.endPointScore (Eco.empty Sample.zeros).w expectAgent (expectLoc [0, 0, 0]) = .ok 0 :=
  ⟨by norm_num [ForecastInUse, expectCfg], expect_in_use, expect_dry, Sample.of_toOption (by decide +kernel)⟩

end Flee
