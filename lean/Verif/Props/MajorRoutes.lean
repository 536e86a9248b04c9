import Verif.Lemmas.MajorRoutes
import Verif.Props.FixedRoutes
import Verif.Lemmas.InputLinks

/-!
Major routes: C126 to C130.
-/

namespace Flee

open Spec

/-- Equality of route tables is decidable (found here once, as the search for it is deep). -/
private instance : DecidableEq (List (String × ℚ × List String × Nat)) := inferInstance

/-! ### C126 -/

/-- C126: every stored route is weighed by the whole walk to its end: either as a regular route, or as a major route, with a quarter
of the distance. -/
theorem C126_weights {c : Cfg} {w w' : World} {i : Nat} (hm : (w.loc i).marker = false) (ha : c.awareness ≠ 0)
    (h : generateLocationRoutes c w i = .ok w') : ∀ r ∈ (w'.loc i).routes,
      (∃ t k, Walk w i t ∧ names w (stops w t) = r.2.2.1 ∧ EndsAt w t r.2.2.2 ∧ WaterWeight c (w.loc r.2.2.2) k ∧
        r.2.1 = pull c w t r.2.2.2 k) ∨
      ∃ hub pre mr t k, (hub = i ∧ pre = [] ∨ ∃ s, Walk w i s ∧ EndsAt w s hub ∧ pre = names w (stops w s)) ∧
        mr ∈ (w.loc hub).majorRoutes ∧ Walk w i t ∧ names w (stops w t) = pre ++ mr ∧ EndsAt w t r.2.2.2 ∧
        WaterWeight c (w.loc r.2.2.2) k ∧ r.2.1 = majorPull c w t ((w.loc r.2.2.2).score * k) := by
  obtain ⟨T, T', o, rfl, hi, -, -⟩ := generate_majors hm ha h
  have reg : ∀ r ∈ T, ∃ l t, Explored c w i l t ∧ EndsAt w (l :: t) r.2.2.2 ∧ names w (stops w (l :: t)) = r.2.2.1 ∧
      ∃ k, WaterWeight c (w.loc r.2.2.2) k ∧ r.2.1 = pull c w (l :: t) r.2.2.2 k := by
    intro r hr
    rcases o.only r hr with hr | ⟨l, t, x, hg, -, hx, -, rfl⟩
    · cases hr
    · obtain ⟨k, hk, hxp⟩ := offer_pull hx
      exact ⟨l, t, hg, endsAt_endOf w t l, rfl, k, hk, by simpa [pull] using hxp⟩
  intro r hr
  rw [setRoutes_routes] at hr
  rcases hi.only r hr with hr | ⟨hub, pre, mr, t, j, k, hh, hmr, hw, hn, he, -, hk, rfl⟩
  · obtain ⟨l, t, hg, he, hn, k, hk, hx⟩ := reg r hr
    exact .inl ⟨l :: t, k, ⟨hg.1, crawl_walk hg.2⟩, hn, he, hk, hx⟩
  · refine .inr ⟨hub, pre, mr, t, k, hh.imp id ?_, hmr, hw, hn, he, hk, rfl⟩
    rintro ⟨s, hs, rfl, rfl⟩
    obtain ⟨l, t, hg, he, hn, -⟩ := reg s hs
    exact ⟨l :: t, ⟨hg.1, crawl_walk hg.2⟩, he, hn.symm⟩

namespace Sample

/-- The chain A–B–C–D with the major route from A to D. -/
def majorChain : List Op := chain4 ++ [.addMajorRoute 0 ["B", "C", "D"]]

end Sample

/-- Both kinds occur: B counts 10 km and the constant 10, D counts a quarter of 30 km and 10. -/
example : ∃ e, Reach Sample.fixedCfg Sample.zeros e ∧ (e.w.loc 0).marker = false ∧ Sample.fixedCfg.awareness ≠ 0 ∧
    ((generateLocationRoutes Sample.fixedCfg e.w 0).toOption.map fun w => (w.loc 0).routes) =
      some [("B", 1 / 20, ["B"], 1), ("D", 1 / 10, ["C", "D"], 3)] :=
  (show Sample.Ends Sample.fixedCfg Sample.zeros Sample.majorChain (fun e => (e.w.loc 0).marker = false ∧
    Sample.fixedCfg.awareness ≠ 0 ∧ ((generateLocationRoutes Sample.fixedCfg e.w 0).toOption.map fun w => (w.loc 0).routes) =
      some [("B", 1 / 20, ["B"], 1), ("D", 1 / 10, ["C", "D"], 3)])
    by decide +kernel).reach fun _ _ => trivial

/-! ### C128 -/

/-- Two worlds with the same map: names, open links and major routes. -/
structure SameMap (w w' : World) : Prop where
  nLoc : w'.nLoc = w.nLoc
  links : ∀ i, (w'.loc i).links = (w.loc i).links
  endp : ∀ l, (w'.link l).endp = (w.link l).endp
  name : ∀ i, (w'.loc i).name = (w.loc i).name
  major : ∀ i, (w'.loc i).majorRoutes = (w.loc i).majorRoutes
  marker : ∀ i, (w'.loc i).marker = (w.loc i).marker

theorem SameMap.symm {w w' : World} (h : SameMap w w') : SameMap w' w :=
  ⟨h.nLoc.symm, fun i => (h.links i).symm, fun i => (h.endp i).symm, fun i => (h.name i).symm, fun i => (h.major i).symm,
    fun i => (h.marker i).symm⟩

theorem SameMap.of_rescored {w w' : World} (g : Rescored w w') : SameMap w w' where
  nLoc := g.nLoc
  links i := (congrArg Loc.links (g.loc i) :)
  endp l := by rw [g.link]
  name i := (congrArg Loc.name (g.loc i) :)
  major i := (congrArg Loc.majorRoutes (g.loc i) :)
  marker i := (congrArg Loc.marker (g.loc i) :)

theorem SameMap.of_day {w w' : World} {n : Nat} (g : CoreEq { w with time := n } w') : SameMap w w' :=
  ⟨g.nLoc, fun i => (congrArg Loc.links (g.locCore i) :), fun l => (congrArg Lnk.endp (g.linkCore l) :),
    fun i => (congrArg Loc.name (g.locCore i) :), fun i => (congrArg Loc.majorRoutes (g.locCore i) :),
    fun i => (congrArg Loc.marker (g.locCore i) :)⟩

theorem SameMap.stops {w w' : World} (h : SameMap w w') (t : List Nat) : Spec.stops w' t = Spec.stops w t := by
  simp [Spec.stops, h.endp]

theorem SameMap.names {w w' : World} (h : SameMap w w') (t : List Nat) : Spec.names w' t = Spec.names w t := by
  simp [Spec.names, h.name]

theorem SameMap.walk {w w' : World} (h : SameMap w w') {i : Nat} {t : List Nat} (g : Walk w i t) : Walk w' i t :=
  walk_congr h.links h.endp g

theorem SameMap.ends {w w' : World} (h : SameMap w w') {t : List Nat} {j : Nat} (g : EndsAt w t j) : EndsAt w' t j := by
  unfold EndsAt at *
  rw [h.stops]
  exact g

theorem Spec.Near.congr {c : Cfg} {w w' : World} {i : Nat} {t : List Nat} (g : Near c w i t) (h : SameMap w w') : Near c w' i t :=
  ⟨h.walk g.1, g.2⟩

theorem Spec.HubOf.congr {c : Cfg} {w w' : World} {i hub : Nat} {pre : List String} (g : HubOf c w i hub pre) (h : SameMap w w') :
    HubOf c w' i hub pre := by
  refine g.imp id ?_
  rintro ⟨s, h1, h2, h3⟩
  exact ⟨s, h1.congr h, h.ends h2, by rw [h.stops, h.names]; exact h3⟩

theorem Spec.RegularRoute.congr {c : Cfg} {w w' : World} {i : Nat} {r : String × ℚ × List String × Nat} (g : RegularRoute c w i r)
    (h : SameMap w w') : RegularRoute c w' i r := by
  obtain ⟨t, h1, h2, h3, h4⟩ := g
  exact ⟨t, h1.congr h, h.ends h2, by rw [h.name]; exact h3, by rw [h.stops, h.names]; exact h4⟩

theorem Spec.MajorRoute.congr {c : Cfg} {w w' : World} {i : Nat} {r : String × ℚ × List String × Nat} (g : MajorRoute c w i r)
    (h : SameMap w w') : MajorRoute c w' i r := by
  obtain ⟨hub, pre, mr, t, h1, h2, h3, h4, h5, h6, h7⟩ := g
  exact ⟨hub, pre, mr, t, h1.congr h, by rw [h.major]; exact h2, h.walk h3, by rw [h.stops, h.names]; exact h4, h.ends h5,
    by rw [h.name]; exact h6, h7⟩

theorem suffix_stops {l : List String} {d : String} (h : l.getLast? = some d) : l.dropLast.tail ++ [d] <:+ l := by
  have hne : l ≠ [] := by rintro rfl; cases h
  have hd : l.getLast hne = d := by
    rw [List.getLast?_eq_some_getLast hne] at h
    exact Option.some.inj h
  conv => rhs; rw [← List.dropLast_append_getLast hne, hd]
  obtain ⟨a, ha⟩ := List.tail_suffix l.dropLast
  exact ⟨a, by rw [← List.append_assoc, ha]⟩

theorem generate_kinds {c : Cfg} {w w' : World} {i : Nat} (h0 : (w.loc i).routes = []) (ha : 0 < c.awareness)
    (h : generateLocationRoutes c w i = .ok w') : ∀ r ∈ (w'.loc i).routes, RegularRoute c w i r ∨ MajorRoute c w i r := by
  cases hm : (w.loc i).marker with
  | true =>
    unfold generateLocationRoutes at h
    rw [hm, if_pos rfl] at h
    rw [← Except.ok.inj h, h0]
    intro r hr
    cases hr
  | false =>
    obtain ⟨T, T', o, rfl, hi, -, -⟩ := generate_majors hm (by omega) h
    have reg : ∀ r ∈ T, RegularRoute c w i r := by
      intro r hr
      rcases o.only r hr with hr | ⟨l, t, x, hg, -, hx, -, rfl⟩
      · cases hr
      · exact ⟨l :: t, ⟨⟨hg.1, crawl_walk hg.2⟩, explored_length hg ha⟩, endsAt_endOf w t l, rfl, rfl⟩
    intro r hr
    rw [setRoutes_routes] at hr
    rcases hi.only r hr with hr | ⟨hub, pre, mr, t, j, k, hh, hmr, hw, hn, he, -, hk, rfl⟩
    · exact .inl (reg r hr)
    · refine .inr ⟨hub, pre, mr, t, hh.imp id ?_, hmr, hw, hn, he, rfl, suffix_stops ?_⟩
      · rintro ⟨s, hs, rfl, rfl⟩
        obtain ⟨t, h1, h2, -, h3⟩ := reg s hs
        exact ⟨t, h1, h2, h3⟩
      · rw [← hn]
        exact getLast_names he

/-- C128: after a time step each stored route is a walk of at most as many links as agents are aware of, or such a walk followed by
one major route of the location where it ends. No route joins two major routes. -/
theorem C128_not_recursive {c : Cfg} {draws : Nat → ℚ} {e e' : Eco} {fuel : Nat} (h : Reach c draws e) (ha : 0 < c.awareness)
    (hf : c.fixedRoutes = true) (hv : e.evolve c fuel = .ok e') : ∀ i < e'.w.nLoc, ∀ r ∈ (e'.w.loc i).routes,
      RegularRoute c e'.w i r ∨ MajorRoute c e'.w i r := by
  obtain ⟨w1, hs, g1, g2, -⟩ := evolve_days (reach_inv h) hv
  have s2 := SameMap.of_day g2
  have key := updateScores_each (Q := fun w i => ∀ r ∈ (w.loc i).routes, RegularRoute c w i r ∨ MajorRoute c w i r)
    (reach_inv h).wellFormed (fun w w' i _ _ h0 hg r hr => by
      have s := SameMap.of_rescored (generateLocationRoutes_rescored hg)
      exact (generate_kinds h0 ha hg r hr).imp (·.congr s) (·.congr s))
    (fun w w' i g hr hq r hr' => by
      have s := SameMap.of_rescored g
      exact (hq r (hr ▸ hr')).imp (·.congr s) (·.congr s)) hf hs
  intro i hi r hr
  have hr1 : r ∈ (w1.loc i).routes := by
    rw [← show (e'.w.loc i).routes = (w1.loc i).routes from (congrArg Loc.routes (g2.locCore i) :)]
    exact hr
  have hi1 : i < e.w.nLoc := by rw [← g1.nLoc, ← show e'.w.nLoc = w1.nLoc from g2.nLoc]; exact hi
  exact (key i hi1 r hr1).imp (·.congr s2) (·.congr s2)

/-- With major routes A to C and C to E, A knows only of C. -/
example : ∃ e, Reach Sample.fixedCfg Sample.zeros e ∧ 0 < Sample.fixedCfg.awareness ∧ Sample.fixedCfg.fixedRoutes = true ∧
    ((e.evolve Sample.fixedCfg 1).toOption.map fun e' => (e'.w.loc 0).routes.map (·.1)) = some ["B", "C"] :=
  (show Sample.Ends Sample.fixedCfg Sample.zeros (Sample.chain4 ++ [.addLocation { name := ⟨"E", 4⟩ },
      .linkUp "D" "E" 10 false none 0, .addMajorRoute 0 ["B", "C"], .addMajorRoute 2 ["D", "E"]]) (fun e =>
    0 < Sample.fixedCfg.awareness ∧ Sample.fixedCfg.fixedRoutes = true ∧
    ((e.evolve Sample.fixedCfg 1).toOption.map fun e' => (e'.w.loc 0).routes.map (·.1)) = some ["B", "C"])
    by decide +kernel).reach fun _ _ => trivial

/-! ### C129 -/

/-- C129, full claim: closing a link does not make the next time step stop. -/
def C129_claim : Prop := ∀ (c : Cfg) (draws : Nat → ℚ) (e e' e1 : Eco) (fuel : Nat) (a b : PyStr) (twoway : Bool),
  Reach c draws e → e.evolve c fuel = .ok e' → (Op.removeLink a b twoway true).exec c e = .ok e1 →
  e1.evolve c fuel ≠ .error .exit

/-- C129 is false: with a closed link on a major route the program stops. -/
theorem C129_closed_false : ¬ C129_claim := by
  intro hall
  obtain ⟨e, hr, h1, h2⟩ := (show Sample.Ends Sample.fixedCfg Sample.zeros Sample.majorChain (fun e =>
      (e.evolve Sample.fixedCfg 1).isOk = true ∧
      (((Op.removeLink ⟨"B", 1⟩ ⟨"C", 2⟩ false true).exec Sample.fixedCfg e).toOption.map fun e1 =>
        match e1.evolve Sample.fixedCfg 1 with
        | .error .exit => true
        | _ => false) = some true)
      by decide +kernel).reach (P := fun _ => True) fun _ _ => trivial
  cases hv : e.evolve Sample.fixedCfg 1 with
  | error err => rw [hv] at h1; cases h1
  | ok e' =>
    obtain ⟨e1, he1, h2⟩ := Option.map_eq_some_iff.1 h2
    refine hall _ _ e e' e1 1 ⟨"B", 1⟩ ⟨"C", 2⟩ false hr hv (Sample.of_toOption he1) ?_
    split at h2
    · assumption
    · cases h2

theorem generate_resolved {c : Cfg} {w w' : World} {i : Nat} (hm : (w.loc i).marker = false) (ha : 0 < c.awareness)
    (h : generateLocationRoutes c w i = .ok w') : ∀ mr ∈ (w.loc i).majorRoutes,
      (∃ d, mr.getLast? = some d ∧ (d = (w.loc i).name.val ∨ ∃ t j, Near c w i t ∧ EndsAt w t j ∧ (w.loc j).name.val = d)) ∨
      ∃ t, Walk w i t ∧ names w (stops w t) = mr := by
  obtain ⟨T, T', o, rfl, -, hr, -⟩ := generate_majors hm (by omega) h
  intro mr hmr
  rcases hr mr hmr with ⟨d, hd, hin⟩ | ⟨t, j, k, hw, hn, -⟩
  · refine .inl ⟨d, hd, ?_⟩
    rcases List.mem_cons.1 hin with hin | hin
    · exact .inl hin
    · obtain ⟨r, hr, rfl⟩ := List.mem_map.1 hin
      rcases o.only r hr with hr | ⟨l, t, x, hg, -, hx, -, rfl⟩
      · cases hr
      · exact .inr ⟨l :: t, _, ⟨⟨hg.1, crawl_walk hg.2⟩, explored_length hg ha⟩, endsAt_endOf w t l, rfl⟩
  · exact .inr ⟨t, hw, hn⟩

/-- C129, what holds: when a time step with fixed routes returns, all links of each major route are open, unless the end of the
major route is known without it. So the program stops as soon as a major route that is needed has a closed link. Missing from the
full claim: going on (`C129_closed_false`). -/
theorem C129_closed_partial {c : Cfg} {draws : Nat → ℚ} {e e' : Eco} {fuel : Nat} (h : Reach c draws e) (ha : 0 < c.awareness)
    (hf : c.fixedRoutes = true) (hv : e.evolve c fuel = .ok e') : ∀ i < e'.w.nLoc, (e'.w.loc i).marker = false →
      ∀ mr ∈ (e'.w.loc i).majorRoutes,
      (∃ d, mr.getLast? = some d ∧ (d = (e'.w.loc i).name.val ∨
        ∃ t j, Near c e'.w i t ∧ EndsAt e'.w t j ∧ (e'.w.loc j).name.val = d)) ∨
      ∃ t, Walk e'.w i t ∧ names e'.w (stops e'.w t) = mr := by
  obtain ⟨w1, hs, g1, g2, -⟩ := evolve_days (reach_inv h) hv
  have keep : ∀ w w' i, SameMap w w' → ((w.loc i).marker = false → ∀ mr ∈ (w.loc i).majorRoutes,
      (∃ d, mr.getLast? = some d ∧ (d = (w.loc i).name.val ∨ ∃ t j, Near c w i t ∧ EndsAt w t j ∧ (w.loc j).name.val = d)) ∨
      ∃ t, Walk w i t ∧ names w (stops w t) = mr) → (w'.loc i).marker = false → ∀ mr ∈ (w'.loc i).majorRoutes,
      (∃ d, mr.getLast? = some d ∧ (d = (w'.loc i).name.val ∨ ∃ t j, Near c w' i t ∧ EndsAt w' t j ∧ (w'.loc j).name.val = d)) ∨
      ∃ t, Walk w' i t ∧ names w' (stops w' t) = mr := by
    intro w w' i s hq hm mr hmr
    rw [s.marker] at hm
    rw [s.major] at hmr
    rcases hq hm mr hmr with ⟨d, hd, h1 | ⟨t, j, h1, h2, h3⟩⟩ | ⟨t, h1, h2⟩
    · exact .inl ⟨d, hd, .inl (by rw [s.name]; exact h1)⟩
    · exact .inl ⟨d, hd, .inr ⟨t, j, h1.congr s, s.ends h2, by rw [s.name]; exact h3⟩⟩
    · exact .inr ⟨t, s.walk h1, by rw [s.stops, s.names]; exact h2⟩
  have key := updateScores_each (Q := fun w i => (w.loc i).marker = false → ∀ mr ∈ (w.loc i).majorRoutes,
      (∃ d, mr.getLast? = some d ∧ (d = (w.loc i).name.val ∨ ∃ t j, Near c w i t ∧ EndsAt w t j ∧ (w.loc j).name.val = d)) ∨
      ∃ t, Walk w i t ∧ names w (stops w t) = mr)
    (reach_inv h).wellFormed (fun w w' i _ _ h0 hg => by
      have s := SameMap.of_rescored (generateLocationRoutes_rescored hg)
      exact keep _ _ _ s fun hm => generate_resolved hm ha hg)
    (fun w w' i g _ hq => keep _ _ _ (SameMap.of_rescored g) hq) hf hs
  intro i hi
  have hi1 : i < e.w.nLoc := by rw [← g1.nLoc, ← show e'.w.nLoc = w1.nLoc from g2.nLoc]; exact hi
  exact keep _ _ _ (SameMap.of_day g2) (key i hi1)

example : ∃ e, Reach Sample.fixedCfg Sample.zeros e ∧ 0 < Sample.fixedCfg.awareness ∧ Sample.fixedCfg.fixedRoutes = true ∧
    (e.evolve Sample.fixedCfg 1).isOk = true ∧ (e.w.loc 0).majorRoutes = [["B", "C", "D"]] :=
  (show Sample.Ends Sample.fixedCfg Sample.zeros Sample.majorChain (fun e =>
    0 < Sample.fixedCfg.awareness ∧ Sample.fixedCfg.fixedRoutes = true ∧
    (e.evolve Sample.fixedCfg 1).isOk = true ∧ (e.w.loc 0).majorRoutes = [["B", "C", "D"]])
    by decide +kernel).reach fun _ _ => trivial

/-! ### C130 -/

/-- C130, full claim: each location knows a route to the end of each of its major routes. -/
def C130_claim : Prop := ∀ (c : Cfg) (draws : Nat → ℚ) (e e' : Eco) (fuel : Nat), Reach c draws e → 0 < c.awareness →
  c.fixedRoutes = true → (∀ i < e.w.nLoc, 0 < (e.w.loc i).score) → e.evolve c fuel = .ok e' →
  ∀ i < e'.w.nLoc, (e'.w.loc i).marker = false → ∀ mr ∈ (e'.w.loc i).majorRoutes, ∀ d, mr.getLast? = some d →
  d = (e'.w.loc i).name.val ∨ ∃ r ∈ (e'.w.loc i).routes, r.1 = d

namespace Sample

/-- The chain A–B–C–D–E–F, 100 km each; F and E come first. The whole chain is a major route from A. -/
def longChain : List Op :=
  [.addLocation { name := ⟨"F", 0⟩ }, .addLocation { name := ⟨"E", 1⟩ }, .addLocation { name := ⟨"D", 2⟩ },
   .addLocation { name := ⟨"C", 3⟩ }, .addLocation { name := ⟨"B", 4⟩ }, .addLocation { name := ⟨"A", 5⟩ },
   .linkUp "A" "B" 100 false none 0, .linkUp "B" "C" 100 false none 0, .linkUp "C" "D" 100 false none 0,
   .linkUp "D" "E" 100 false none 0, .linkUp "E" "F" 100 false none 0, .addMajorRoute 5 ["B", "C", "D", "E", "F"]]

/-- A with two ways to D: by B, and by C and E. Both are major routes from A. -/
def twoWays : List Op :=
  [.addLocation { name := ⟨"A", 0⟩ }, .addLocation { name := ⟨"B", 1⟩ }, .addLocation { name := ⟨"C", 2⟩ },
   .addLocation { name := ⟨"D", 3⟩ }, .addLocation { name := ⟨"E", 4⟩ },
   .linkUp "A" "B" 100 false none 0, .linkUp "B" "D" 100 false none 0, .linkUp "A" "C" 100 false none 0,
   .linkUp "C" "E" 100 false none 0, .linkUp "E" "D" 100 false none 0,
   .addMajorRoute 0 ["B", "D"], .addMajorRoute 0 ["C", "E", "D"]]

end Sample

set_option synthInstance.maxSize 512 in
/-- C130 is false: the new route is compared with what the last location before the end knows, which is nearer, so A does not learn
of F. -/
theorem C130_stored_false : ¬ C130_claim := by
  intro hall
  obtain ⟨e, hr, hp, he⟩ := (show Sample.Ends Sample.fixedCfg Sample.zeros Sample.longChain (fun e =>
      (∀ i < e.w.nLoc, 0 < (e.w.loc i).score) ∧ ((e.evolve Sample.fixedCfg 1).toOption.map fun e' =>
        (decide (5 < e'.w.nLoc), (e'.w.loc 5).marker, (e'.w.loc 5).majorRoutes, (e'.w.loc 5).name.val,
          (e'.w.loc 5).routes.map (·.1))) = some (true, false, [["B", "C", "D", "E", "F"]], "A", ["B"]))
      by decide +kernel).reach (P := fun _ => True) fun _ _ => trivial
  obtain ⟨e', hv, h⟩ := Option.map_eq_some_iff.1 he
  simp only [Prod.mk.injEq, decide_eq_true_eq] at h
  obtain ⟨h1, h2, h3, h4, h5⟩ := h
  rcases hall _ _ e e' 1 hr (by decide) rfl hp (Sample.of_toOption hv) 5 h1 h2 ["B", "C", "D", "E", "F"] (by simp [h3]) "F" rfl with
    h | ⟨r, hr, hd⟩
  · rw [h4] at h
    simp at h
  · have : r.1 ∈ (e'.w.loc 5).routes.map (·.1) := List.mem_map.2 ⟨r, hr, rfl⟩
    rw [h5, hd] at this
    simp at this

theorem penultimate_eq (w : World) : ∀ (t : List Nat) (i : Nat), t ≠ [] → penultimate w i t = beforeEnd w i t
  | [], _, h => absurd rfl h
  | [l], i, _ => by simp [penultimate, beforeEnd, stops]
  | l :: m :: t, i, _ => by
    rw [penultimate, penultimate_eq w (m :: t) _ (by simp)]
    simp [beforeEnd, stops]
    rw [List.getLast?_cons]
    rfl

theorem resolved_stored {c : Cfg} {w : World} {i : Nat} {T T' : RouteTable} {pre mr : List String}
    (o : Offers c w (Explored c w i) 0 [(w.loc i).name.val] [] T) (hkeys : ∀ m, (∃ r ∈ T, r.1 = m) → ∃ r ∈ T', r.1 = m)
    (hr : Resolved c w i (T.map fun r => (w.loc r.2.2.2).name.val) T' pre mr) {d : String}
    (hd : mr.getLast? = some d) (hown : d ≠ (w.loc i).name.val)
    (hw : ∀ t j k, Walk w i t → names w (stops w t) = pre ++ mr → EndsAt w t j → WaterWeight c (w.loc j) k →
      0 < majorPull c w t ((w.loc j).score * k) ∧
      ∀ s ∈ (w.loc (beforeEnd w i t)).routes, s.1 = d → s.2.1 < majorPull c w t ((w.loc j).score * k)) :
    ∃ r ∈ T', r.1 = d := by
  rcases hr with ⟨d', hd', hin⟩ | ⟨t, j, k, h1, h2, h3, h4, h5⟩
  · obtain rfl : d = d' := by rw [hd] at hd'; exact Option.some.inj hd'
    rcases List.mem_cons.1 hin with hin | hin
    · exact absurd hin hown
    · obtain ⟨r, hr, rfl⟩ := List.mem_map.1 hin
      refine hkeys _ ⟨r, hr, ?_⟩
      rcases o.only r hr with hr | ⟨l, t, x, hg, -, hx, -, rfl⟩
      · cases hr
      · rfl
  · obtain rfl : d = (w.loc j).name.val := by
      have := getLast_names h3
      rw [h2, List.getLast?_append, hd] at this
      simpa using this
    rcases h5 with h5 | ⟨T1, hk, hle⟩
    · exact h5
    · obtain ⟨hpos, hlt⟩ := hw t j k h1 h2 h3 h4
      have hne : t ≠ [] := by rintro rfl; simp [EndsAt, stops] at h3
      obtain ⟨r, hr, hn, hr1⟩ := weight_mem (lt_of_lt_of_le hpos hle)
      by_cases hpi : penultimate w i t = i
      · rw [hpi, setRoutes_routes] at hr
        exact hk _ ⟨r, hr, hn⟩
      · have : ((w.setRoutes i T1).loc (penultimate w i t)) = w.loc (penultimate w i t) := by
          simp [World.setRoutes, World.setLoc, hpi]
        rw [this, penultimate_eq w t i hne] at hr
        have := hlt r hr hn
        rw [hr1] at this
        exact absurd this (not_lt.2 hle)

/-- C130, what holds: the end of a major route of the location gets known, if the location before the end of the route knows no
route to that end, or only one that weighs less. Missing from the full claim: the comparison with another location
(`C130_stored_false`). -/
theorem C130_stored_partial {c : Cfg} {w w' : World} {i : Nat} (hm : (w.loc i).marker = false) (ha : 0 < c.awareness)
    (h : generateLocationRoutes c w i = .ok w') {mr : List String} (hmr : mr ∈ (w.loc i).majorRoutes) {d : String}
    (hd : mr.getLast? = some d) (hown : d ≠ (w.loc i).name.val)
    (hw : ∀ t j k, Walk w i t → names w (stops w t) = mr → EndsAt w t j → WaterWeight c (w.loc j) k →
      0 < majorPull c w t ((w.loc j).score * k) ∧
      ∀ s ∈ (w.loc (beforeEnd w i t)).routes, s.1 = d → s.2.1 < majorPull c w t ((w.loc j).score * k)) :
    ∃ r ∈ (w'.loc i).routes, r.1 = d := by
  obtain ⟨T, T', o, rfl, hi, hr, -⟩ := generate_majors hm (by omega) h
  rw [setRoutes_routes]
  exact resolved_stored o hi.keys (hr mr hmr) hd hown hw

/-- Three stops. -/
theorem walk_three {w : World} {i : Nat} {t : List Nat} {a b d : String} (h : Walk w i t) (hn : names w (stops w t) = [a, b, d]) :
    ∃ l m n, t = [l, m, n] ∧ l ∈ (w.loc i).links ∧ m ∈ (w.loc (w.link l).endp).links ∧ n ∈ (w.loc (w.link m).endp).links := by
  match t, h, hn with
  | [], _, hn => simp [names, stops] at hn
  | [l], _, hn => simp [names, stops] at hn
  | [l, m], _, hn => simp [names, stops] at hn
  | [l, m, n], h, _ => exact ⟨l, m, n, rfl, h.1, h.2.1, h.2.2.1⟩
  | l :: m :: n :: o :: t, _, hn => simp [names, stops] at hn

set_option synthInstance.maxSize 512 in
/-- D gets known at A this way. -/
example : ∃ (w : World) (w' : World), (w.loc 0).marker = false ∧ 0 < Sample.fixedCfg.awareness ∧
    generateLocationRoutes Sample.fixedCfg w 0 = .ok w' ∧ ["B", "C", "D"] ∈ (w.loc 0).majorRoutes ∧
    "D" ≠ (w.loc 0).name.val ∧ ∀ t j k, Walk w 0 t → names w (stops w t) = ["B", "C", "D"] → EndsAt w t j →
      WaterWeight Sample.fixedCfg (w.loc j) k → 0 < majorPull Sample.fixedCfg w t ((w.loc j).score * k) ∧
      ∀ s ∈ (w.loc (beforeEnd w 0 t)).routes, s.1 = "D" → s.2.1 < majorPull Sample.fixedCfg w t ((w.loc j).score * k) := by
  obtain ⟨e, hr, h1, h2, h3, h4, h5⟩ := (show Sample.Ends Sample.fixedCfg Sample.zeros Sample.majorChain (fun e =>
      (e.w.loc 0).marker = false ∧ (generateLocationRoutes Sample.fixedCfg e.w 0).isOk = true ∧
      ["B", "C", "D"] ∈ (e.w.loc 0).majorRoutes ∧ "D" ≠ (e.w.loc 0).name.val ∧
      ∀ l ∈ (e.w.loc 0).links, ∀ m ∈ (e.w.loc (e.w.link l).endp).links, ∀ n ∈ (e.w.loc (e.w.link m).endp).links,
        0 < majorPull Sample.fixedCfg e.w [l, m, n] (e.w.loc (e.w.link n).endp).score ∧ (e.w.loc (e.w.link m).endp).routes = [])
    by decide +kernel).reach (P := fun _ => True) fun _ _ => trivial
  cases hg : generateLocationRoutes Sample.fixedCfg e.w 0 with
  | error err => rw [hg] at h2; cases h2
  | ok w' =>
    refine ⟨e.w, w', h1, by decide, hg, h3, h4, fun t j k ht hn hj hk => ?_⟩
    obtain ⟨l, m, n, rfl, hl, hm, hn'⟩ := walk_three ht hn
    obtain rfl : (e.w.link n).endp = j := by simpa [EndsAt, stops] using hj
    obtain ⟨h6, h7⟩ := h5 l hl m hm n hn'
    obtain rfl : k = 1 := by
      rcases hk with ⟨h, -⟩ | ⟨-, h⟩
      · exact absurd h (by decide)
      · exact h
    refine ⟨by simpa using h6, fun s hs => ?_⟩
    rw [show beforeEnd e.w 0 [l, m, n] = (e.w.link m).endp by simp [beforeEnd, stops], h7] at hs
    cases hs

/-- C130 for the major routes of a location `hub` nearby, when names are distinct. -/
theorem C130_hubs_partial {c : Cfg} {w w' : World} {i : Nat} (hm : (w.loc i).marker = false) (ha : 0 < c.awareness)
    (wf : WellFormed w) (hi : i < w.nLoc) (hdist : ∀ a < w.nLoc, ∀ b < w.nLoc, (w.loc a).name.val = (w.loc b).name.val → a = b)
    (h : generateLocationRoutes c w i = .ok w') {u : List Nat} {hub : Nat} {k : ℚ} (hu : Near c w i u) (hl : LoopFree w i u)
    (he : EndsAt w u hub) (hhm : (w.loc hub).marker = false) (hk : WaterWeight c (w.loc hub) k) (hp : 0 < pull c w u hub k)
    {mr : List String} (hmr : mr ∈ (w.loc hub).majorRoutes) {d : String} (hd : mr.getLast? = some d)
    (hown : d ≠ (w.loc i).name.val)
    (hw : ∀ s t j k, Near c w i s → EndsAt w s hub → Walk w i t → names w (stops w t) = names w (stops w s) ++ mr →
      EndsAt w t j → WaterWeight c (w.loc j) k → 0 < majorPull c w t ((w.loc j).score * k) ∧
      ∀ s ∈ (w.loc (beforeEnd w i t)).routes, s.1 = d → s.2.1 < majorPull c w t ((w.loc j).score * k)) :
    ∃ r ∈ (w'.loc i).routes, r.1 = d := by
  obtain ⟨T, T', o, rfl, hinv, -, hr⟩ := generate_majors hm (by omega) h
  rw [setRoutes_routes]
  cases u with
  | nil => simp [EndsAt, stops] at he
  | cons l u =>
    obtain rfl := endsAt_unique (endsAt_endOf w u l) he
    have hlen := hu.2
    simp only [List.length_cons] at hlen
    push_cast at hlen
    have hcr : Crawl c w 1 [(w.loc i).name.val] l u := crawl_of_loopFree hu.1.2 hl (by omega)
    obtain ⟨x, hx, hle⟩ := o.best l u ⟨hu.1.1, hcr⟩ hhm
    obtain ⟨k', hk', hxp⟩ := offer_pull hx
    obtain rfl := hk.unique hk'
    have hxp : x = pull c w (l :: u) (endOf w l u) k := by simpa [pull] using hxp
    rw [hxp] at hle
    obtain ⟨r, hrT, hn, -⟩ := weight_mem (lt_of_lt_of_le hp hle)
    obtain ⟨s, hs, hsr, hres⟩ := hr r hrT
    rcases o.only s hs with hs' | ⟨l', t', x', hg, -, hx', -, rfl⟩
    · cases hs'
    · have hlt := endsAt_lt wf hi hu.1 he
      have hlt' := endsAt_lt wf hi (t := l' :: t') ⟨hg.1, crawl_walk hg.2⟩ (endsAt_endOf w t' l')
      have heq : endOf w l' t' = endOf w l u := hdist _ hlt' _ hlt (hsr.trans hn)
      dsimp only at hres
      rw [heq] at hres
      refine resolved_stored o hinv.keys (hres mr hmr) hd hown ?_
      intro t j k hwt hnt
      exact hw (l' :: t') t j k ⟨⟨hg.1, crawl_walk hg.2⟩, explored_length hg ha⟩ (heq ▸ endsAt_endOf w t' l') hwt hnt

set_option synthInstance.maxSize 512 in
/-- The hub B near A, with the major route B, C, D. -/
example : ∃ (w : World), (w.loc 0).marker = false ∧ 0 < Sample.fixedCfg.awareness ∧ WellFormed w ∧ 0 < w.nLoc ∧
    (∀ a < w.nLoc, ∀ b < w.nLoc, (w.loc a).name.val = (w.loc b).name.val → a = b) ∧
    ((generateLocationRoutes Sample.fixedCfg w 0).toOption.map fun w => (w.loc 0).routes.map (·.1)) = some ["B", "D"] ∧
    Near Sample.fixedCfg w 0 [0] ∧ LoopFree w 0 [0] ∧ EndsAt w [0] 1 ∧ (w.loc 1).marker = false ∧
    WaterWeight Sample.fixedCfg (w.loc 1) 1 ∧ 0 < pull Sample.fixedCfg w [0] 1 1 ∧ ["C", "D"] ∈ (w.loc 1).majorRoutes ∧
    "D" ≠ (w.loc 0).name.val ∧
    ∀ s t j k, Near Sample.fixedCfg w 0 s → EndsAt w s 1 → Walk w 0 t → names w (stops w t) = names w (stops w s) ++ ["C", "D"] →
      EndsAt w t j → WaterWeight Sample.fixedCfg (w.loc j) k → 0 < majorPull Sample.fixedCfg w t ((w.loc j).score * k) ∧
      ∀ s ∈ (w.loc (beforeEnd w 0 t)).routes, s.1 = "D" → s.2.1 < majorPull Sample.fixedCfg w t ((w.loc j).score * k) := by
  obtain ⟨e, hr, h1, h2, h3, h4, h5, h6, h7, h8, h9, h10⟩ := (show Sample.Ends Sample.fixedCfg Sample.zeros
      (Sample.chain4 ++ [.addMajorRoute 1 ["C", "D"]]) (fun e =>
      (e.w.loc 0).marker = false ∧ 0 < e.w.nLoc ∧ (∀ a < e.w.nLoc, ∀ b < e.w.nLoc, (e.w.loc a).name.val = (e.w.loc b).name.val → a = b) ∧
      ((generateLocationRoutes Sample.fixedCfg e.w 0).toOption.map fun w => (w.loc 0).routes.map (·.1)) = some ["B", "D"] ∧
      (0 ∈ (e.w.loc 0).links ∧ (e.w.link 0).endp = 1) ∧ (names e.w (0 :: stops e.w [0])).Nodup ∧ (e.w.loc 1).marker = false ∧
      (0 < pull Sample.fixedCfg e.w [0] 1 1 ∧ ["C", "D"] ∈ (e.w.loc 1).majorRoutes) ∧ "D" ≠ (e.w.loc 0).name.val ∧
      ∀ l ∈ (e.w.loc 0).links, ∀ m ∈ (e.w.loc (e.w.link l).endp).links, ∀ n ∈ (e.w.loc (e.w.link m).endp).links,
        0 < majorPull Sample.fixedCfg e.w [l, m, n] (e.w.loc (e.w.link n).endp).score ∧ (e.w.loc (e.w.link m).endp).routes = [])
    by decide +kernel).reach (P := fun _ => True) fun _ _ => trivial
  refine ⟨e.w, h1, by decide, (reach_inv hr).wellFormed, h2, h3, h4, ⟨⟨h5.1, trivial⟩, by decide⟩, h6,
    by simp [EndsAt, stops, h5.2], h7, .inr ⟨.inl rfl, rfl⟩, h8.1, h8.2, h9, fun s t j k hs hs1 ht hn hj hk => ?_⟩
  have hs2 : ∃ b, names e.w (stops e.w s) = [b] := by
    match s, hs, hs1 with
    | [], _, h => simp [EndsAt, stops] at h
    | [l], _, _ => exact ⟨_, rfl⟩
    | l :: m :: s, h, _ =>
      have := h.2
      simp only [List.length_cons, Sample.fixedCfg] at this
      push_cast at this
      omega
  obtain ⟨b, hb⟩ := hs2
  rw [hb] at hn
  obtain ⟨l, m, n, rfl, hl, hm, hn'⟩ := walk_three ht hn
  obtain rfl : (e.w.link n).endp = j := by simpa [EndsAt, stops] using hj
  obtain ⟨h6, h7⟩ := h10 l hl m hm n hn'
  obtain rfl : k = 1 := by
    rcases hk with ⟨h, -⟩ | ⟨-, h⟩
    · exact absurd h (by decide)
    · exact h
  refine ⟨by simpa using h6, fun s hs => ?_⟩
  rw [show beforeEnd e.w 0 [l, m, n] = (e.w.link m).endp by simp [beforeEnd, stops], h7] at hs
  cases hs

/-- C130, the claim that the best is kept: of several major routes of a location to the same end, which is not near, the best one
counts. -/
def C130_best_claim : Prop := ∀ (c : Cfg) (draws : Nat → ℚ) (e : Eco) (w' : World) (i : Nat), Reach c draws e → 0 < c.awareness →
  generateLocationRoutes c e.w i = .ok w' → ∀ mr ∈ (e.w.loc i).majorRoutes, ∀ t j k, Walk e.w i t →
  names e.w (stops e.w t) = mr → EndsAt e.w t j → WaterWeight c (e.w.loc j) k →
  (∀ u, Near c e.w i u → ¬ EndsAt e.w u j) → ∀ r ∈ (w'.loc i).routes, r.2.2.2 = j →
  majorPull c e.w t ((e.w.loc j).score * k) ≤ r.2.1

set_option synthInstance.maxSize 512 in
/-- The best major route is not kept: a later one replaces it. -/
theorem C130_best_false : ¬ C130_best_claim := by
  intro hall
  obtain ⟨e, hr, h1, h2, h3, h4, h5, h6⟩ := (show Sample.Ends Sample.fixedCfg Sample.zeros Sample.twoWays (fun e =>
      ((generateLocationRoutes Sample.fixedCfg e.w 0).toOption.map fun w => (w.loc 0).routes) =
        some [("B", 1 / 110, ["B"], 1), ("C", 1 / 110, ["C"], 2), ("D", 2 / 155, ["E", "D"], 3)] ∧
      ["B", "D"] ∈ (e.w.loc 0).majorRoutes ∧ (0 ∈ (e.w.loc 0).links ∧ 2 ∈ (e.w.loc (e.w.link 0).endp).links) ∧
      names e.w (stops e.w [0, 2]) = ["B", "D"] ∧ ((e.w.link 2).endp = 3 ∧ ∀ l ∈ (e.w.loc 0).links, (e.w.link l).endp ≠ 3) ∧
      majorPull Sample.fixedCfg e.w [0, 2] (e.w.loc 3).score = 2 / 105)
    by decide +kernel).reach (P := fun _ => True) fun _ _ => trivial
  obtain ⟨w', hg, hroutes⟩ := Option.map_eq_some_iff.1 h1
  have := hall _ _ e w' 0 hr (by decide) (Sample.of_toOption hg) _ h2 [0, 2] 3 1 ⟨h3.1, h3.2, trivial⟩ h4
    (by simp [EndsAt, stops, h5.1]) (.inr ⟨.inl rfl, rfl⟩) (fun u hu he => by
      match u, hu, he with
      | [], _, h => simp [EndsAt, stops] at h
      | [l], hu, h =>
        refine h5.2 l hu.1.1 (by simpa [EndsAt, stops] using h)
      | l :: m :: s, h, _ =>
        have := h.2
        simp only [List.length_cons, Sample.fixedCfg] at this
        push_cast at this
        omega) ("D", 2 / 155, ["E", "D"], 3) (by rw [hroutes]; simp) rfl
  rw [mul_one, h6] at this
  norm_num at this

/-! ### C127 -/

/-- The names on a line of the file of major routes; blank cells do not count. -/
def lineStops (line : Row) : List String := line.filter (· ≠ "")

/-- C127, full claim: the major routes of the location of each row are those of all lines that start or end there, the latter
reversed. -/
def C127_claim : Prop := ∀ (c : Cfg) (draws : Nat → ℚ) (n : Numerals) (scale : ℚ) (ids : Nat → Nat) (cids : Nat → Nat × Nat)
  (g : Geo) (e e' : Eco), Reach c draws e → storeGeo c n scale ids cids g e = .ok e' → ∀ j r name,
  g.locations[j]? = some r → r[0]? = some name → ∀ m, m ∈ (e'.w.loc (e.w.nLoc + j)).majorRoutes ↔
    ∃ line ∈ g.majorRoutes, lineStops line = name :: m ∨ (lineStops line).reverse = name :: m

/-- What a line adds to a location. -/
def lineAdds (name : String) (line : Row) : List (List String) :=
  (if line.head? = some name then [line.tail.filter (· ≠ "")] else []) ++
  (if line.getLast? = some name then [line.dropLast.reverse.filter (· ≠ "")] else [])

theorem appendIf_major {c : Cfg} {e e' : Eco} {i : Nat} {b : Bool} {r : List String} (h : appendIf c e i b r = .ok e') :
    e'.w.nLoc = e.w.nLoc ∧ ∀ j, (e'.w.loc j).majorRoutes = (e.w.loc j).majorRoutes ++
      if j = i ∧ b = true then [r.filter (· ≠ "")] else [] := by
  unfold appendIf at h
  split at h
  · rename_i hb
    simp only [Op.exec, Except.bind_eq_ok, Except.pure_eq_ok] at h
    obtain ⟨w, h1, rfl⟩ := h
    unfold appendMajorRoute at h1
    split at h1
    · rw [← Except.ok.inj h1]
      refine ⟨rfl, fun j => ?_⟩
      by_cases hj : j = i <;> simp [World.setLoc, hj, hb]
    · cases h1
  · rename_i hb
    rw [← Except.ok.inj h]
    exact ⟨rfl, fun j => by simp [hb]⟩

theorem storeMajor_major {c : Cfg} {i : Nat} {name : String} : ∀ {rows : List Row} {e e' : Eco},
    storeMajor c i name e rows = .ok e' → e'.w.nLoc = e.w.nLoc ∧ ∀ j, (e'.w.loc j).majorRoutes = (e.w.loc j).majorRoutes ++
      if j = i then rows.flatMap (lineAdds name) else []
  | [], e, e', h => by
    simp only [storeMajor, Except.ok.injEq] at h
    subst h
    simp
  | r :: rs, e, e', h => by
    simp only [storeMajor, Except.bind_eq_ok] at h
    obtain ⟨first, hf, e1, h1, last, hl, e2, h2, h3⟩ := h
    obtain ⟨n1, g1⟩ := appendIf_major h1
    obtain ⟨n2, g2⟩ := appendIf_major h2
    obtain ⟨n3, g3⟩ := storeMajor_major h3
    refine ⟨n3.trans (n2.trans n1), fun j => ?_⟩
    have hf' : r.head? = some first := by rw [List.head?_eq_getElem?]; exact cell_inv hf
    have hl' : r.getLast? = some last := by rw [List.getLast?_eq_getElem?]; exact cell_inv hl
    rw [g3, g2, g1]
    by_cases hj : j = i
    · simp only [hj, if_true, List.flatMap_cons, lineAdds, hf', hl', true_and, decide_eq_true_eq, Option.some.injEq,
        List.append_assoc]
    · simp [hj]

theorem addLinkAt_major (w : World) (k : Lnk) (j : Nat) : ((addLinkAt w k).loc j).majorRoutes = (w.loc j).majorRoutes := by
  simp only [addLinkAt, upd_apply]
  split
  · rename_i h; rw [h]
  · rfl

theorem callLinkUp_major {c : Cfg} {n : Numerals} {e e' : Eco} {a b s : String} {f : Bool} {sp wk : Option ℚ}
    (h : callLinkUp c n e a b s f sp wk = .ok e') : ∀ j, (e'.w.loc j).majorRoutes = (e.w.loc j).majorRoutes := by
  simp only [callLinkUp, Op.exec, Except.bind_eq_ok, Except.pure_eq_ok] at h
  obtain ⟨d, -, w, h1, rfl⟩ := h
  obtain ⟨x, y, hx, hy, rfl⟩ := linkUp_eq h1
  intro j
  rw [addLinkAt_major, addLinkAt_major]

theorem storeLinks_major {c : Cfg} {n : Numerals} {cols : Option (List String)} : ∀ {rows : List Row} {e e' : Eco},
    storeLinks c n cols e rows = .ok e' → ∀ j, (e'.w.loc j).majorRoutes = (e.w.loc j).majorRoutes
  | [], e, e', h => by
    simp only [storeLinks, List.foldlM_nil, Except.pure_eq_ok] at h
    exact h ▸ fun _ => rfl
  | r :: rs, e, e', h => by
    simp only [storeLinks, List.foldlM_cons, Except.bind_eq_ok] at h
    obtain ⟨e1, h1, h2⟩ := h
    intro j
    rw [storeLinks_major h2 j]
    simp only [storeLink, Except.bind_eq_ok] at h1
    obtain ⟨at', -, sp, -, wk, -, a', ha, b', hb, s', hs', h⟩ := h1
    split at h
    · simp only [Except.bind_eq_ok] at h
      obtain ⟨fl, -, h⟩ := h
      unfold storeFlagged at h
      split at h
      · simp only [Except.bind_eq_ok] at h
        obtain ⟨e2, h1, h2⟩ := h
        rw [callLinkUp_major h2, callLinkUp_major h1]
      · split at h <;> exact callLinkUp_major h j
    · exact callLinkUp_major h j

theorem mkLoc_major (c : Cfg) (a : LocArgs) : (mkLoc c a).majorRoutes = [] := by
  unfold mkLoc
  dsimp only
  cases a.ty with
  | none => dsimp only; split <;> simp
  | some ty => dsimp only; split <;> cases typeTag ty <;> simp [applyTag]

theorem storeLocation_major {c : Cfg} {n : Numerals} {scale : ℚ} {cols : Option (List String)} {home : String} {oid : Nat}
    {e e' : Eco} {r : Row} (h : storeLocation c n scale cols home oid e r = .ok e') : e'.w.nLoc = e.w.nLoc + 1 ∧
      ∀ j, (e'.w.loc j).majorRoutes = if j = e.w.nLoc then [] else (e.w.loc j).majorRoutes := by
  simp only [storeLocation, Except.bind_eq_ok] at h
  obtain ⟨name, h0, s, h7, pop, hp, sx, h3, cx, hcx, sy, h4, cy, hcy, _, -, country, h2, ty0, h5, date, h6, ty, ht, attrs, ha,
    v, hv, h⟩ := h
  simp only [Op.exec, Except.bind_eq_ok, Eco.refresh, Except.pure_eq_ok] at h
  obtain ⟨w1, h1, sw, -, rfl⟩ := h
  simp only [addLocation] at h1
  have g := updateLocationScore_rescored h1
  refine ⟨g.nLoc, fun j => ?_⟩
  rw [show (w1.loc j).majorRoutes = _ from (congrArg Loc.majorRoutes (g.loc j) :)]
  simp only [Loc.fixed, upd_apply]
  split
  · exact mkLoc_major _ _
  · rfl

theorem storeLocations_major {c : Cfg} {n : Numerals} {scale : ℚ} {g : Geo} {home : String} {ids : Nat → Nat} :
    ∀ {rows : List Row} {k : Nat} {e e' : Eco}, storeLocations c n scale g home ids k e rows = .ok e' →
      (∀ i < e.w.nLoc, (e'.w.loc i).majorRoutes = (e.w.loc i).majorRoutes) ∧
      ∀ j r, rows[j]? = some r → ∃ name, r[0]? = some name ∧
        (e'.w.loc (e.w.nLoc + j)).majorRoutes = g.majorRoutes.flatMap (lineAdds name)
  | [], k, e, e', h => by
    simp only [storeLocations, Except.ok.injEq] at h
    subst h
    exact ⟨fun _ _ => rfl, fun j r hr => by simp at hr⟩
  | r :: rs, k, e, e', h => by
    simp only [storeLocations, Except.bind_eq_ok] at h
    obtain ⟨e1, h1, name, hname, e2, h2, h3⟩ := h
    obtain ⟨n1, m1⟩ := storeLocation_major h1
    obtain ⟨n2, m2⟩ := storeMajor_major h2
    obtain ⟨o3, r3⟩ := storeLocations_major h3
    have hn2 : e2.w.nLoc = e.w.nLoc + 1 := n2.trans n1
    refine ⟨fun i hi => ?_, fun j x hx => ?_⟩
    · rw [o3 i (by omega), m2, m1, if_neg (by omega), if_neg (by omega), List.append_nil]
    · cases j with
      | zero =>
        simp only [List.getElem?_cons_zero, Option.some.injEq] at hx
        subst hx
        refine ⟨name, cell_inv hname, ?_⟩
        rw [Nat.add_zero, o3 _ (by omega), m2, m1, if_pos rfl, if_pos rfl, List.nil_append]
      | succ j =>
        obtain ⟨a', ha', g'⟩ := r3 j x hx
        rw [hn2] at g'
        exact ⟨a', ha', by rwa [show e.w.nLoc + (j + 1) = e.w.nLoc + 1 + j by omega]⟩

theorem storeGeo_major {c : Cfg} {n : Numerals} {scale : ℚ} {ids : Nat → Nat} {cids : Nat → Nat × Nat} {g : Geo}
    {e e' : Eco} (h : storeGeo c n scale ids cids g e = .ok e') : ∀ j r, g.locations[j]? = some r → ∃ name, r[0]? = some name ∧
      (e'.w.loc (e.w.nLoc + j)).majorRoutes = g.majorRoutes.flatMap (lineAdds name) := by
  unfold storeGeo at h
  split at h
  · simp at h
  · rename_i first rest hf
    simp only [Except.bind_eq_ok, Op.exec, Except.ok.injEq] at h
    obtain ⟨country, hc, e1, h1, e2, h2, rows, -, rfl⟩ := h
    intro j r hr
    obtain ⟨name, h3, h4⟩ := (storeLocations_major h1).2 j r hr
    exact ⟨name, h3, (storeLinks_major h2 _).trans h4⟩

/-- C127, what holds: when no line of the file of major routes starts or ends with a blank cell, the major routes of the location of
each row are those of all lines that start there, and those of all lines that end there, reversed. Missing from the full
claim: lines with blank cells at the end (`C127_two_way_false`). -/
theorem C127_two_way_partial {c : Cfg} {n : Numerals} {scale : ℚ} {ids : Nat → Nat} {cids : Nat → Nat × Nat} {g : Geo}
    {e e' : Eco} (h : storeGeo c n scale ids cids g e = .ok e')
    (hb : ∀ line ∈ g.majorRoutes, line.head? ≠ some "" ∧ line.getLast? ≠ some "") {j : Nat} {r : Row} {name : String}
    (hr : g.locations[j]? = some r) (hn : r[0]? = some name) (m : List String) :
    m ∈ (e'.w.loc (e.w.nLoc + j)).majorRoutes ↔
      ∃ line ∈ g.majorRoutes, lineStops line = name :: m ∨ (lineStops line).reverse = name :: m := by
  obtain ⟨name', hn', hm⟩ := storeGeo_major h j r hr
  obtain rfl : name = name' := by rw [hn] at hn'; exact Option.some.inj hn'
  rw [hm, List.mem_flatMap]
  refine exists_congr fun line => and_congr_right fun hl => ?_
  obtain ⟨h1, h2⟩ := hb line hl
  unfold lineAdds lineStops
  rw [List.mem_append]
  refine or_congr ?_ ?_
  · cases line with
    | nil => simp
    | cons a rest =>
      have ha : a ≠ "" := by simpa using h1
      rw [List.filter_cons_of_pos (by simpa using ha)]
      simp only [List.head?_cons, Option.some.injEq, List.tail_cons, List.cons.injEq]
      by_cases h : a = name
      · simp only [h, if_true, List.mem_singleton, true_and]
        exact eq_comm
      · simp [h]
  · rcases List.eq_nil_or_concat line with rfl | ⟨rest, a, rfl⟩
    · simp
    · have ha : a ≠ "" := by simpa using h2
      rw [List.concat_eq_append, List.filter_append, List.filter_cons_of_pos (by simpa using ha)]
      simp only [List.filter_nil, List.reverse_append, List.reverse_cons, List.reverse_nil, List.nil_append, List.getLast?_append,
        List.getLast?_singleton, Option.some_or, Option.some.injEq, List.dropLast_concat, List.cons_append, List.cons.injEq,
        ← List.filter_reverse]
      by_cases h : a = name
      · simp only [h, if_true, List.mem_singleton, true_and]
        exact eq_comm
      · simp [h]

/-- Whole numbers in digits. -/
private def digits (s : String) : Option Nat :=
  if s.isEmpty then none
  else s.toList.foldlM (fun k ch => if '0' ≤ ch ∧ ch ≤ '9' then some (10 * k + (ch.toNat - '0'.toNat)) else none) 0

@[inherit_doc digits]
private def nums : Numerals := ⟨fun s => (digits s).map Int.ofNat, fun s => (digits s).map fun k => (k : ℚ)⟩

/-- Three towns and lines of major routes. -/
private def linesGeo (lines : List Row) : Geo where
  locations := [["A", "R", "X", "1", "2", "town", "0", "100"], ["B", "R", "X", "1", "2", "town", "0", "100"],
    ["C", "R", "X", "1", "2", "town", "0", "100"]]
  links := [["A", "B", "10", "0"], ["B", "C", "20"]]
  majorRoutes := lines

/-- A line with two directions. -/
example : (∀ line ∈ (linesGeo [["A", "B", "C"]]).majorRoutes, line.head? ≠ some "" ∧ line.getLast? ≠ some "") ∧
    (storeGeo {} nums 1 id (fun _ => (7, 8)) (linesGeo [["A", "B", "C"]]) (Eco.empty Sample.zeros)).toOption.map
      (fun e => (List.range e.w.nLoc).map fun i => (e.w.loc i).majorRoutes) = some [[["B", "C"]], [], [["B", "A"]]] := by
  decide +kernel

/-- C127 is false: a line that is padded with a blank cell, as a shorter line of a table is, gives no way back. -/
theorem C127_two_way_false : ¬ C127_claim := by
  intro hall
  obtain ⟨e', h1, h2⟩ := Option.map_eq_some_iff.1 (show (storeGeo {} nums 1 id (fun _ => (7, 8))
    (linesGeo [["A", "B", "C", ""]]) (Eco.empty Sample.zeros)).toOption.map (fun e => (e.w.loc 2).majorRoutes) = some []
    by decide +kernel)
  have := (hall {} Sample.zeros nums 1 id (fun _ => (7, 8)) (linesGeo [["A", "B", "C", ""]]) _ e' .empty (Sample.of_toOption h1)
    2 _ "C" rfl rfl ["B", "A"]).2 ⟨["A", "B", "C", ""], by simp [linesGeo], .inr (by decide +kernel)⟩
  rw [show (Eco.empty Sample.zeros).w.nLoc + 2 = 2 from rfl, h2] at this
  cases this

end Flee
