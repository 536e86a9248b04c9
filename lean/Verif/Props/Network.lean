import Verif.Lemmas.Schedule
import Verif.Lemmas.Sample

/-!
Building, closing and reopening the network: C27 to C35 and C66.
-/

namespace Flee

open Spec

/-- The network A - B, used in examples. -/
private abbrev pairNet : List Op :=
  [.addLocation { name := ⟨"A", 0⟩, country := "X" }, .addLocation { name := ⟨"B", 1⟩, country := "Y" },
   .linkUp "A" "B" 500 false none 0]

/-- The network A - B, A - C, used in examples. -/
private abbrev starNet : List Op :=
  pairNet ++ [.addLocation { name := ⟨"C", 2⟩, country := "X" }, .linkUp "A" "C" 70 false none 0]

private def namesOKb (w : World) : Bool :=
  (List.range w.nLoc).all fun i => (List.range w.nLoc).all fun j =>
    (decide (i = j) || decide ((w.loc i).name.val ≠ (w.loc j).name.val)) &&
    (decide (i = j) || decide ((w.loc i).name.oid ≠ (w.loc j).name.oid))

private theorem namesOKb_ok {w : World} (h : namesOKb w = true) : NamesOK w := by
  simp only [namesOKb, List.all_eq_true, List.mem_range, Bool.and_eq_true, Bool.or_eq_true, decide_eq_true_eq] at h
  refine ⟨fun i hi j hj he => ?_, fun i hi j hj he => ?_⟩
  · exact ((h i hi j hj).1).resolve_right fun hne => hne he
  · rw [((h i hi j hj).2).resolve_right fun hne => hne he]

private theorem openRoads_addLink {w : World} {as : List Agent} {k : Lnk} (h : Inv w as) {i : Nat} (hi : i < w.nLoc) :
    openRoads (addLinkAt w k) i = openRoads w i ++
      (if i = k.start then [{ k with closed := false, numAgents := 0, cumNumAgents := 0, dict := 0 }] else []) := by
  have hl : ∀ l ∈ (w.loc i).links, road (addLinkAt w k) l = road w l := fun l hl => by
    have := (h.lnk i hi l (.inl hl)).1
    simp only [road, addLinkAt, upd_apply]
    rw [if_neg (by omega)]
  have hl' := List.map_congr_left hl
  by_cases hik : i = k.start
  · subst hik
    rw [if_pos rfl]
    unfold openRoads
    rw [show ((addLinkAt w k).loc k.start).links = (w.loc k.start).links ++ [w.nLink] by simp [addLinkAt], List.map_append, hl']
    simp [road, addLinkAt]
  · rw [if_neg hik, List.append_nil]
    unfold openRoads
    rw [show ((addLinkAt w k).loc i).links = (w.loc i).links by simp [addLinkAt, upd_apply, hik], hl']

/-- C27: linking two known locations adds one road in each direction, with the same length, and changes nothing else. -/
theorem C27_linkUp_symmetric {c : Cfg} {draws : Nat → ℚ} {e : Eco} (hr : Reach c draws e) (hn : DistinctNames e.w) {a b : Nat}
    (ha : a < e.w.nLoc) (hb : b < e.w.nLoc) (dist : ℚ) (forced : Bool) (speed : Option ℚ) (walk : ℚ) : ∃ w',
    linkUp e.w (e.w.loc a).name.val (e.w.loc b).name.val dist forced speed walk = .ok w' ∧ SameLocs e.w w' ∧
    w'.nLink = e.w.nLink + 2 ∧ (∀ l < e.w.nLink, w'.link l = e.w.link l) ∧
    ∀ i < e.w.nLoc, (w'.loc i).closedLinks = (e.w.loc i).closedLinks ∧ openRoads w' i = openRoads e.w i ++
      (if i = a then [{ start := a, endp := b, dist := dist, forced := forced, maxMoveSpeed := speed, walkProb := walk }] else []) ++
      (if i = b then [{ start := b, endp := a, dist := dist, maxMoveSpeed := speed, walkProb := walk }] else []) := by
  have hinv := reach_inv hr
  have hlast : ∀ {i : Nat}, i < e.w.nLoc → e.w.lastIdx (e.w.loc i).name.val = some i := fun hi => lastIdx_named hn hi rfl
  obtain ⟨w', h⟩ : ∃ w', linkUp e.w (e.w.loc a).name.val (e.w.loc b).name.val dist forced speed walk = .ok w' := by
    unfold linkUp
    rw [hlast ha, hlast hb]
    exact ⟨_, rfl⟩
  refine ⟨w', h, ?_⟩
  obtain ⟨x, y, hx, hy, rfl⟩ := linkUp_eq h
  rw [hlast ha, Option.some.injEq] at hx
  rw [hlast hb, Option.some.injEq] at hy
  subst hx hy
  refine ⟨⟨rfl, rfl, rfl, fun i => ?_⟩, rfl, fun l hl => ?_, fun i hi => ?_⟩
  · simp only [addLinkAt, upd_apply]
    by_cases h1 : i = a <;> by_cases h2 : i = b <;> simp_all
  · simp only [addLinkAt, upd_apply]
    rw [if_neg (by omega), if_neg (by omega)]
  · have i1 := hinv.addLink (k := { start := a, endp := b, dist := dist, forced := forced, maxMoveSpeed := speed, walkProb := walk,
                                      dict := e.w.nLink })
      ha hb rfl rfl
    refine ⟨?_, ?_⟩
    · simp only [addLinkAt, upd_apply]
      by_cases h1 : i = a <;> by_cases h2 : i = b <;> simp_all
    · rw [openRoads_addLink i1 hi, openRoads_addLink hinv hi]

/-- C27: linking to or from an unknown name stops the program. -/
theorem C27_linkUp_unknown {w : World} {n1 n2 : String} (h : (∀ i < w.nLoc, (w.loc i).name.val ≠ n1) ∨ ∀ i < w.nLoc, (w.loc i).name.val ≠ n2)
    (dist : ℚ) (forced : Bool) (speed : Option ℚ) (walk : ℚ) : linkUp w n1 n2 dist forced speed walk = .error .exit := by
  unfold linkUp
  rcases h with h | h
  · rw [lastIdx_none h]
  · rw [lastIdx_none h]
    cases w.lastIdx n1 <;> rfl

example : ∃ e : Eco, Reach {} Sample.zeros e ∧ DistinctNames e.w ∧ 1 < e.w.nLoc ∧ (openRoads e.w 0).length = 2 ∧
    ∀ i < e.w.nLoc, (e.w.loc i).name.val ≠ "Z" := by
  obtain ⟨e, h1, h2, h3⟩ := (show Sample.Ends {} Sample.zeros (pairNet ++ [.linkUp "A" "B" 30 false none 0]) (fun e =>
    namesOKb e.w = true ∧ 1 < e.w.nLoc ∧ (openRoads e.w 0).length = 2 ∧ ∀ i < e.w.nLoc, (e.w.loc i).name.val ≠ "Z")
    by decide +kernel).reach (P := fun _ => True) fun _ _ => trivial
  exact ⟨e, h1, (namesOKb_ok h2).distinct, h3⟩

/-- C28 is false: a parallel link that was closed before is reopened too. -/
theorem C28_close_reopen_false : ¬ ∀ (c : Cfg) (draws : Nat → ℚ) (e : Eco) (s t : PyStr) (w₁ w₂ : World) (b₁ b₂ : Bool), Reach c draws e →
    NamesOK e.w → closeLink e.w s t false = .ok (w₁, b₁) → reopenLink w₁ s t false = .ok (w₂, b₂) → SameOpen e.w w₂ := by
  intro h
  obtain ⟨e, hr, hn, hx⟩ := (show Sample.Ends {} Sample.zeros
      (pairNet ++ [.removeLink ⟨"A", 0⟩ ⟨"B", 1⟩ false true, .linkUp "A" "B" 30 false none 0]) (fun e => namesOKb e.w = true ∧
      ((closeLink e.w ⟨"A", 0⟩ ⟨"B", 1⟩ false).toOption.bind fun p => (reopenLink p.1 ⟨"A", 0⟩ ⟨"B", 1⟩ false).toOption.map
        fun q => (openRoads q.1 0).length) = some 2 ∧ (openRoads e.w 0).length = 1 ∧ 0 < e.w.nLoc)
      by decide +kernel).reach (P := fun _ => True) fun _ _ => trivial
  obtain ⟨⟨w₁, b₁⟩, h1, hx1⟩ := Option.bind_eq_some_iff.1 hx.1
  obtain ⟨⟨w₂, b₂⟩, h2, hx2⟩ := Option.map_eq_some_iff.1 hx1
  have := (h {} Sample.zeros e _ _ w₁ w₂ b₁ b₂ hr (namesOKb_ok hn) (Sample.of_toOption h1) (Sample.of_toOption h2) 0 hx.2.2).length_eq
  rw [hx2, hx.2.1] at this
  cases this

/-- C28, what holds: between the two calls exactly the roads from the start to the end are missing, and afterwards the open
roads are those from before together with the roads from start to end that were closed before. With none of those, the
network is restored. Missing from the full claim: networks where such a road was closed already, for which the claim
is false. -/
theorem C28_close_reopen_partial {c : Cfg} {draws : Nat → ℚ} {e : Eco} {w₁ w₂ : World} {b₁ b₂ : Bool} {s t : PyStr} {a : Nat}
    (hr : Reach c draws e) (hn : DistinctNames e.w) (ha : a < e.w.nLoc) (hs : (e.w.loc a).name.val = s.val)
    (h₁ : closeLink e.w s t false = .ok (w₁, b₁)) (h₂ : reopenLink w₁ s t false = .ok (w₂, b₂)) :
    SameLocs e.w w₁ ∧ SameLocs e.w w₂ ∧
    (∀ i < e.w.nLoc, openRoads w₁ i =
      (openRoads e.w i).filter (fun r => !(decide (i = a) && decide ((e.w.loc r.endp).name.oid = t.oid)))) ∧
    (∀ i < e.w.nLoc, (openRoads w₂ i).Perm (openRoads e.w i ++
      (closedRoads e.w i).filter (fun r => decide (i = a) && decide ((e.w.loc r.endp).name.oid = t.oid)))) ∧
    ((∀ r ∈ closedRoads e.w a, (e.w.loc r.endp).name.oid ≠ t.oid) → SameOpen e.w w₂) := by
  have hi := reach_inv hr
  obtain ⟨-, s1, i1, o1, c1, -⟩ := close_roads hi h₁
  obtain ⟨-, s2, i2, o2, c2, -⟩ := reopen_roads i1 h₂
  rw [nameIdx_named hn ha hs] at o1 c1
  rw [nameIdx_eq s1, nameIdx_named hn ha hs, s1.nLoc] at o2
  have key : ∀ i < e.w.nLoc, (openRoads w₂ i).Perm (openRoads e.w i ++
      (closedRoads e.w i).filter (fun r => decide (i = a) && decide ((e.w.loc r.endp).name.oid = t.oid))) := by
    intro i hlt
    have e1 := o1 i hlt
    have e2 := c1 i hlt
    have e3 := o2 i hlt
    by_cases hia : i = a
    · subst hia
      rw [if_pos rfl] at e1 e2 e3
      rw [e3, e1, e2, hits_eq s1, List.filter_append, List.filter_filter]
      simp only [decide_true, Bool.true_and, Bool.and_self]
      have hc : (fun r : Lnk => decide ((e.w.loc r.endp).name.oid = t.oid)) = hits e.w t := rfl
      rw [hc]
      refine List.perm_append_comm_assoc .. |>.trans ?_
      refine List.perm_append_comm.trans (List.Perm.append_right _ ?_)
      exact List.perm_append_comm.trans (filter_compl_perm _ _)
    · rw [if_neg hia] at e1 e2 e3
      rw [e3, e1]
      simp [hia]
  refine ⟨s1, s1.trans s2, fun i hlt => ?_, key, fun hno i hlt => ?_⟩
  · rw [o1 i hlt]
    by_cases hia : i = a
    · subst hia
      rw [if_pos rfl]
      refine List.filter_congr fun r _ => ?_
      simp [hits]
    · rw [if_neg hia]
      simp [hia]
  · refine (key i hlt).trans ?_
    rw [List.filter_eq_nil_iff.2, List.append_nil]
    intro r hr'
    by_cases hia : i = a
    · subst hia
      simp [hno r hr']
    · simp [hia]

example : ∃ (e : Eco) (p q : World × Bool), Reach {} Sample.zeros e ∧ DistinctNames e.w ∧ 0 < e.w.nLoc ∧
    (e.w.loc 0).name.val = "A" ∧ closeLink e.w ⟨"A", 7⟩ ⟨"B", 1⟩ false = .ok p ∧ reopenLink p.1 ⟨"A", 7⟩ ⟨"B", 1⟩ false = .ok q ∧
    (∀ r ∈ closedRoads e.w 0, (e.w.loc r.endp).name.oid ≠ 1) ∧ (openRoads p.1 0).length = 1 ∧ (openRoads q.1 0).length = 2 := by
  obtain ⟨e, hr, hn, hx, h0, hA, hc⟩ := (show Sample.Ends {} Sample.zeros starNet (fun e => namesOKb e.w = true ∧
      ((closeLink e.w ⟨"A", 7⟩ ⟨"B", 1⟩ false).toOption.bind fun p => (reopenLink p.1 ⟨"A", 7⟩ ⟨"B", 1⟩ false).toOption.map
        fun q => ((openRoads p.1 0).length, (openRoads q.1 0).length)) = some (1, 2) ∧ 0 < e.w.nLoc ∧
      (e.w.loc 0).name.val = "A" ∧ (∀ r ∈ closedRoads e.w 0, (e.w.loc r.endp).name.oid ≠ 1))
      by decide +kernel).reach (P := fun _ => True) fun _ _ => trivial
  obtain ⟨p, h1, hx1⟩ := Option.bind_eq_some_iff.1 hx
  obtain ⟨q, h2, hx2⟩ := Option.map_eq_some_iff.1 hx1
  simp only [Prod.mk.injEq] at hx2
  exact ⟨e, p, q, hr, (namesOKb_ok hn).distinct, h0, hA, Sample.of_toOption h1, Sample.of_toOption h2, hc, hx2⟩

/-- C29 is false: a two-way removal leaves the link in the named direction. -/
theorem C29_twoway_false : ¬ ∀ (c : Cfg) (draws : Nat → ℚ) (e : Eco) (a b : Nat) (w' : World) (ok : Bool), Reach c draws e → NamesOK e.w →
    a < e.w.nLoc → b < e.w.nLoc → removeLink e.w (e.w.loc a).name (e.w.loc b).name true false = .ok (w', ok) →
    (∀ r ∈ openRoads w' a, r.endp ≠ b) ∧ ∀ r ∈ openRoads w' b, r.endp ≠ a := by
  intro h
  obtain ⟨e, hr, hn, hx, h0, h1⟩ := (show Sample.Ends {} Sample.zeros pairNet (fun e => namesOKb e.w = true ∧
      ((removeLink e.w (e.w.loc 0).name (e.w.loc 1).name true false).toOption.map
        fun p => (openRoads p.1 0).map (·.endp)) = some [1] ∧ 0 < e.w.nLoc ∧ 1 < e.w.nLoc)
      by decide +kernel).reach (P := fun _ => True) fun _ _ => trivial
  obtain ⟨⟨w', ok⟩, hw, hx⟩ := Option.map_eq_some_iff.1 hx
  have hm : (1 : Nat) ∈ (openRoads w' 0).map (·.endp) := by rw [hx]; simp
  obtain ⟨r, hr', he⟩ := List.mem_map.1 hm
  exact (h {} Sample.zeros e 0 1 w' ok hr (namesOKb_ok hn) h0 h1 (Sample.of_toOption hw)).1 r hr' he

/-- C29, what holds: a two-way removal takes away exactly the links from the second location to the first. Missing from
the full claim: the links from the first to the second, which stay. -/
theorem C29_twoway_partial {c : Cfg} {draws : Nat → ℚ} {e : Eco} {a b : Nat} (hr : Reach c draws e) (hn : NamesOK e.w)
    (ha : a < e.w.nLoc) (hb : b < e.w.nLoc) : ∃ w' ok, removeLink e.w (e.w.loc a).name (e.w.loc b).name true false = .ok (w', ok) ∧
    SameLocs e.w w' ∧ (ok = true ↔ ∃ r ∈ openRoads e.w b, r.endp = a) ∧
    (∀ i < e.w.nLoc, closedRoads w' i = closedRoads e.w i ∧
      openRoads w' i = (openRoads e.w i).filter (fun r => !(decide (i = b) && decide (r.endp = a)))) := by
  have hi := reach_inv hr
  obtain ⟨w', ok, h⟩ := removeLink1_ok (w := e.w) (by omega) (e.w.loc b).name (e.w.loc a).name false
  obtain ⟨-, s1, i1, o1, c1, hok⟩ := remove_roads hi h
  rw [nameIdx_named hn.distinct hb rfl] at o1 hok
  obtain ⟨-, f2, f3⟩ := filter_hits hn ha (rs := openRoads e.w b) fun r hr => (hi.openRoad hb hr).1
  refine ⟨w', ok, h, s1, ?_, fun i hlt => ⟨c1 i hlt, ?_⟩⟩
  · rw [hok, f3]
    exact any_leads
  · rw [o1 i hlt]
    by_cases hib : i = b
    · subst hib
      rw [if_pos rfl, f2]
      simp [leads]
    · rw [if_neg hib]
      simp [hib]

example : ∃ e : Eco, Reach {} Sample.zeros e ∧ NamesOK e.w ∧ 0 < e.w.nLoc ∧ 1 < e.w.nLoc ∧ ∃ r ∈ openRoads e.w 1, r.endp = 0 := by
  obtain ⟨e, h1, h2, h3⟩ := (show Sample.Ends {} Sample.zeros starNet (fun e =>
    namesOKb e.w = true ∧ 0 < e.w.nLoc ∧ 1 < e.w.nLoc ∧ ∃ r ∈ openRoads e.w 1, r.endp = 0)
    by decide +kernel).reach (P := fun _ => True) fun _ _ => trivial
  exact ⟨e, h1, namesOKb_ok h2, h3⟩

/-- C30 is false: with an endpoint string that is equal to the name but is another object, nothing is closed. -/
theorem C30_equal_names_false : ¬ ∀ (c : Cfg) (draws : Nat → ℚ) (e : Eco) (s t : PyStr) (a b : Nat) (w' : World) (ok : Bool),
    Reach c draws e → NamesOK e.w → a < e.w.nLoc → b < e.w.nLoc → (e.w.loc a).name.val = s.val → (e.w.loc b).name.val = t.val →
    closeLink e.w s t false = .ok (w', ok) → ∀ r ∈ openRoads w' a, r.endp ≠ b := by
  intro h
  obtain ⟨e, hr, hn, hx, h0, h1, h2, h3⟩ := (show Sample.Ends {} Sample.zeros pairNet (fun e => namesOKb e.w = true ∧
      ((closeLink e.w ⟨"A", 8⟩ ⟨"B", 9⟩ false).toOption.map
        fun p => (openRoads p.1 0).map (·.endp)) = some [1] ∧ 0 < e.w.nLoc ∧ 1 < e.w.nLoc ∧ (e.w.loc 0).name.val = "A" ∧
        (e.w.loc 1).name.val = "B")
      by decide +kernel).reach (P := fun _ => True) fun _ _ => trivial
  obtain ⟨⟨w', ok⟩, hw, hx⟩ := Option.map_eq_some_iff.1 hx
  have hm : (1 : Nat) ∈ (openRoads w' 0).map (·.endp) := by rw [hx]; simp
  obtain ⟨r, hr', he⟩ := List.mem_map.1 hm
  exact h {} Sample.zeros e _ _ 0 1 w' ok hr (namesOKb_ok hn) h0 h1 h2 h3 (Sample.of_toOption hw) r hr' he

/-- C30, what holds: the start may be any string equal to a name. If the endpoint is the very string object of the name,
closing, reopening and removing act on exactly the roads between the two locations; if it is a new object, they return
that nothing was done, and no road changes. Missing from the full claim: endpoint strings that are equal to a name but
are other objects, for which it is false. -/
theorem C30_equal_names_partial {c : Cfg} {draws : Nat → ℚ} {e : Eco} {s t : PyStr} {a : Nat} (hr : Reach c draws e)
    (hn : NamesOK e.w) (ha : a < e.w.nLoc) (hs : (e.w.loc a).name.val = s.val) :
    (∀ b < e.w.nLoc, t = (e.w.loc b).name →
      (∃ w' ok, closeLink e.w s t false = .ok (w', ok) ∧ (ok = true ↔ ∃ r ∈ openRoads e.w a, r.endp = b) ∧
        openRoads w' a = (openRoads e.w a).filter (fun r => decide (r.endp ≠ b)) ∧
        closedRoads w' a = closedRoads e.w a ++ (openRoads e.w a).filter (fun r => decide (r.endp = b))) ∧
      (∃ w' ok, reopenLink e.w s t false = .ok (w', ok) ∧ (ok = true ↔ ∃ r ∈ closedRoads e.w a, r.endp = b) ∧
        openRoads w' a = openRoads e.w a ++ (closedRoads e.w a).filter (fun r => decide (r.endp = b)) ∧
        closedRoads w' a = (closedRoads e.w a).filter (fun r => decide (r.endp ≠ b))) ∧
      (∃ w' ok, removeLink e.w s t false false = .ok (w', ok) ∧ (ok = true ↔ ∃ r ∈ openRoads e.w a, r.endp = b) ∧
        openRoads w' a = (openRoads e.w a).filter (fun r => decide (r.endp ≠ b)) ∧ closedRoads w' a = closedRoads e.w a)) ∧
    ((∀ b < e.w.nLoc, (e.w.loc b).name.oid ≠ t.oid) →
      (∃ w', closeLink e.w s t false = .ok (w', false) ∧
        ∀ i < e.w.nLoc, openRoads w' i = openRoads e.w i ∧ closedRoads w' i = closedRoads e.w i) ∧
      (∃ w', reopenLink e.w s t false = .ok (w', false) ∧
        ∀ i < e.w.nLoc, openRoads w' i = openRoads e.w i ∧ closedRoads w' i = closedRoads e.w i) ∧
      (∃ w', removeLink e.w s t false false = .ok (w', false) ∧
        ∀ i < e.w.nLoc, openRoads w' i = openRoads e.w i ∧ closedRoads w' i = closedRoads e.w i)) := by
  have hi := reach_inv hr
  have h0 : 0 < e.w.nLoc := by omega
  obtain ⟨w1, b1, h1⟩ := removeLink1_ok h0 s t true
  obtain ⟨w2, b2, h2⟩ := reopenLink1_ok h0 s t
  obtain ⟨w3, b3, h3⟩ := removeLink1_ok h0 s t false
  obtain ⟨-, -, -, o1, c1, k1⟩ := close_roads hi h1
  obtain ⟨-, -, -, o2, c2, k2⟩ := reopen_roads hi h2
  obtain ⟨-, -, -, o3, c3, k3⟩ := remove_roads hi h3
  rw [nameIdx_named hn.distinct ha hs] at o1 c1 k1 o2 c2 k2 o3 k3
  refine ⟨fun b hb ht => ?_, fun hno => ?_⟩
  · subst ht
    obtain ⟨f1, f2, f3⟩ := filter_hits hn hb (rs := openRoads e.w a) fun r hr => (hi.openRoad ha hr).1
    obtain ⟨g1, g2, g3⟩ := filter_hits hn hb (rs := closedRoads e.w a) fun r hr => (hi.closedRoad ha hr).1
    have hneg : (fun r : Lnk => !leads b r) = fun r => decide (r.endp ≠ b) := by funext r; simp [leads]
    rw [hneg] at f2 g2
    refine ⟨⟨w1, b1, h1, ?_, ?_, ?_⟩, ⟨w2, b2, h2, ?_, ?_, ?_⟩, ⟨w3, b3, h3, ?_, ?_, ?_⟩⟩
    · rw [k1, f3]; exact any_leads
    · rw [o1 a ha, if_pos rfl, f2]
    · rw [c1 a ha, if_pos rfl, f1]
    · rw [k2, g3]; exact any_leads
    · rw [o2 a ha, if_pos rfl, g1]
    · rw [c2 a ha, if_pos rfl, g2]
    · rw [k3, f3]; exact any_leads
    · rw [o3 a ha, if_pos rfl, f2]
    · exact c3 a ha
  · have hh : ∀ rs : List Lnk, (∀ r ∈ rs, r.endp < e.w.nLoc) → rs.filter (hits e.w t) = [] ∧
        rs.filter (fun r => !hits e.w t r) = rs ∧ rs.any (hits e.w t) = false := by
      intro rs hrs
      have hz : ∀ r ∈ rs, hits e.w t r = false := fun r hr => by
        have := hno _ (hrs r hr)
        simpa [hits] using this
      refine ⟨List.filter_eq_nil_iff.2 fun r hr => by simp [hz r hr], List.filter_eq_self.2 fun r hr => by simp [hz r hr], ?_⟩
      rw [List.any_eq_false]
      intro r hr
      simp [hz r hr]
    obtain ⟨f1, f2, f3⟩ := hh (openRoads e.w a) fun r hr => (hi.openRoad ha hr).1
    obtain ⟨g1, g2, g3⟩ := hh (closedRoads e.w a) fun r hr => (hi.closedRoad ha hr).1
    rw [f3] at k1 k3
    rw [g3] at k2
    subst k1 k2 k3
    refine ⟨⟨w1, h1, fun i hlt => ?_⟩, ⟨w2, h2, fun i hlt => ?_⟩, ⟨w3, h3, fun i hlt => ⟨?_, c3 i hlt⟩⟩⟩
    · rw [o1 i hlt, c1 i hlt]
      by_cases hia : i = a
      · subst hia; rw [if_pos rfl, if_pos rfl, f1, f2, List.append_nil]; exact ⟨rfl, rfl⟩
      · rw [if_neg hia, if_neg hia]; exact ⟨rfl, rfl⟩
    · rw [o2 i hlt, c2 i hlt]
      by_cases hia : i = a
      · subst hia; rw [if_pos rfl, if_pos rfl, g1, g2, List.append_nil]; exact ⟨rfl, rfl⟩
      · rw [if_neg hia, if_neg hia]; exact ⟨rfl, rfl⟩
    · rw [o3 i hlt]
      by_cases hia : i = a
      · subst hia; rw [if_pos rfl, f2]
      · rw [if_neg hia]

example : ∃ e : Eco, Reach {} Sample.zeros e ∧ NamesOK e.w ∧ 0 < e.w.nLoc ∧ (e.w.loc 0).name.val = "A" ∧ 1 < e.w.nLoc ∧
    (∃ r ∈ openRoads e.w 0, r.endp = 1) ∧ ∀ b < e.w.nLoc, (e.w.loc b).name.oid ≠ 9 := by
  obtain ⟨e, h1, h2, h3⟩ := (show Sample.Ends {} Sample.zeros starNet (fun e =>
    namesOKb e.w = true ∧ 0 < e.w.nLoc ∧ (e.w.loc 0).name.val = "A" ∧ 1 < e.w.nLoc ∧ (∃ r ∈ openRoads e.w 0, r.endp = 1) ∧
    ∀ b < e.w.nLoc, (e.w.loc b).name.oid ≠ 9)
    by decide +kernel).reach (P := fun _ => True) fun _ _ => trivial
  exact ⟨e, h1, namesOKb_ok h2, h3⟩

private theorem closeBoth_spec {as : List Agent} {w w' : World} {i fuel : Nat} {ok : Bool} (hi : Inv w as) (hn : NamesOK w)
    (hlt : i < w.nLoc) (h : closeLocation fuel w (w.loc i).name.val true = .ok (w', ok)) :
    ok = true ∧ (∀ r ∈ openRoads w i, r.endp ≠ i) ∧ SameLocs w w' ∧ Inv w' as ∧
    openRoads w' i = [] ∧ (closedRoads w' i).Perm (closedRoads w i ++ openRoads w i) ∧
    ∀ y < w.nLoc, y ≠ i →
      openRoads w' y = (if (openRoads w i).any (leads y) then (openRoads w y).filter (fun r => !leads i r) else openRoads w y) ∧
      closedRoads w' y = (if (openRoads w i).any (leads y) then closedRoads w y ++ (openRoads w y).filter (leads i)
        else closedRoads w y) := by
  rw [closeLocation_eq hn.distinct hlt] at h
  obtain ⟨w1, h1, h2⟩ := map_ok.1 h
  simp only [Prod.mk.injEq] at h2
  obtain ⟨rfl, rfl⟩ := h2
  simp only [if_true] at h1
  have hs : ∀ r ∈ openRoads w i, r.endp ≠ i := by
    intro r hr he
    rw [closeBoth_self hi hn hlt (any_leads.2 ⟨r, hr, he⟩)] at h1
    cases h1
  refine ⟨rfl, hs, ?_⟩
  obtain ⟨w2, h2, h3⟩ := closeBoth_roads hi hn hlt hs (le_refl _)
  rw [fuel_unique (F := fun f => closeLocLoop i .both f w (w.loc i).links 0) (fun _ _ h _ hg => closeLocLoop_mono h _ hg) h1 h2]
  exact h3

private theorem reopenBoth_spec {as : List Agent} {w w' : World} {i fuel : Nat} {ok : Bool} (hi : Inv w as) (hn : NamesOK w)
    (hlt : i < w.nLoc) (hs : ∀ r ∈ closedRoads w i, r.endp ≠ i) (h : reopenLocation fuel w (w.loc i).name.val true = .ok (w', ok)) :
    SameLocs w w' ∧ Inv w' as ∧
    closedRoads w' i = [] ∧ (openRoads w' i).Perm (openRoads w i ++ closedRoads w i) ∧
    ∀ y < w.nLoc, y ≠ i →
      openRoads w' y = (if (closedRoads w i).any (leads y) then openRoads w y ++ (closedRoads w y).filter (leads i)
        else openRoads w y) ∧
      closedRoads w' y = (if (closedRoads w i).any (leads y) then (closedRoads w y).filter (fun r => !leads i r)
        else closedRoads w y) := by
  rw [reopenLocation_eq hn.distinct hlt] at h
  obtain ⟨w1, h1, h2⟩ := map_ok.1 h
  simp only [Prod.mk.injEq] at h2
  obtain ⟨rfl, rfl⟩ := h2
  simp only [if_true] at h1
  obtain ⟨w2, h2, h3⟩ := reopenBoth_roads hi hn hlt hs (le_refl _)
  rw [fuel_unique (F := fun f => reopenLocLoop i .both f w (w.loc i).closedLinks 0) (fun _ _ h _ hg => reopenLocLoop_mono h _ hg) h1 h2]
  exact h3

/-- C31: when `close_location` returns, no open road leaves the location, none leads into it from a location it was
linked to, and roads that do not touch it are as before. -/
theorem C31_closed_location_isolated {c : Cfg} {draws : Nat → ℚ} {e : Eco} {w' : World} {i fuel : Nat} {ok : Bool}
    (hr : Reach c draws e) (hn : NamesOK e.w) (hi : i < e.w.nLoc)
    (h : closeLocation fuel e.w (e.w.loc i).name.val true = .ok (w', ok)) :
    ok = true ∧ SameLocs e.w w' ∧ openRoads w' i = [] ∧
    (∀ y < e.w.nLoc, (∃ r ∈ openRoads e.w i, r.endp = y) → ∀ r ∈ openRoads w' y, r.endp ≠ i) ∧
    (∀ y < e.w.nLoc, y ≠ i → (¬ ∃ r ∈ openRoads e.w i, r.endp = y) → openRoads w' y = openRoads e.w y) ∧
    (∀ y < e.w.nLoc, y ≠ i → (openRoads w' y).filter (fun r => decide (r.endp ≠ i)) =
      (openRoads e.w y).filter (fun r => decide (r.endp ≠ i))) := by
  obtain ⟨hok, hs, h1, -, h3, -, h5⟩ := closeBoth_spec (reach_inv hr) hn hi h
  have hneg : (fun r : Lnk => !leads i r) = fun r => decide (r.endp ≠ i) := by funext r; simp [leads]
  rw [hneg] at h5
  refine ⟨hok, h1, h3, fun y hy hex r hry => ?_, fun y hy hne hno => ?_, fun y hy hne => ?_⟩
  · obtain ⟨q, hq, he⟩ := hex
    have hne : y ≠ i := fun e' => hs q hq (he.trans e')
    have := (h5 y hy hne).1
    rw [if_pos (any_leads.2 ⟨q, hq, he⟩)] at this
    rw [this] at hry
    simpa using (List.mem_filter.1 hry).2
  · have := (h5 y hy hne).1
    rw [if_neg fun ha => hno (any_leads.1 ha)] at this
    exact this
  · rw [(h5 y hy hne).1]
    split
    · rw [List.filter_filter]
      simp
    · rfl

/-- C31, one-way variant: `close_location` with `twoway=False` always returns and closes exactly the roads into the
location from the locations it is linked to. -/
theorem C31_closed_location_incoming {c : Cfg} {draws : Nat → ℚ} {e : Eco} {i fuel : Nat} (hr : Reach c draws e) (hn : NamesOK e.w)
    (hi : i < e.w.nLoc) (hf : (openRoads e.w i).length < fuel) : ∃ w',
    closeLocation fuel e.w (e.w.loc i).name.val false = .ok (w', true) ∧ SameLocs e.w w' ∧
    ∀ y < e.w.nLoc, ((∃ r ∈ openRoads e.w i, r.endp = y) → openRoads w' y = (openRoads e.w y).filter (fun r => decide (r.endp ≠ i))) ∧
      ((¬ ∃ r ∈ openRoads e.w i, r.endp = y) → openRoads w' y = openRoads e.w y) := by
  have hinv := reach_inv hr
  obtain ⟨n, rfl⟩ : ∃ n, fuel = n + 1 := ⟨fuel - 1, by omega⟩
  obtain ⟨w', h1, h2, h3, h4⟩ := closeIn_roads (ls := (e.w.loc i).links) (n := n) (j := 0) hinv hn hi
    (fun l hl => (hinv.lnk i hi l (.inl hl)).1) (by simp only [openRoads, List.length_map] at hf; omega)
  refine ⟨w', ?_, h2, fun y hy => ?_⟩
  · rw [closeLocation_eq hn.distinct hi]
    simp only [Bool.false_eq_true, if_false, h1]
    rfl
  · have hneg : (fun r : Lnk => !leads i r) = fun r => decide (r.endp ≠ i) := by funext r; simp [leads]
    have heq : leadsTo e.w (e.w.loc i).links y = true ↔ ∃ r ∈ openRoads e.w i, r.endp = y := by
      rw [leadsTo_iff]
      constructor
      · rintro ⟨l, hl, he⟩
        exact ⟨road e.w l, List.mem_map.2 ⟨l, hl, rfl⟩, he⟩
      · rintro ⟨r, hr, he⟩
        obtain ⟨l, hl, rfl⟩ := List.mem_map.1 hr
        exact ⟨l, hl, he⟩
    have := (h4 y hy).1
    rw [List.drop_zero, hneg] at this
    constructor
    · intro hex
      rw [this, if_pos (heq.2 hex)]
    · intro hno
      rw [this, if_neg fun ha => hno (heq.1 ha)]

example : ∃ (e : Eco) (p : World × Bool), Reach {} Sample.zeros e ∧ NamesOK e.w ∧ 0 < e.w.nLoc ∧
    closeLocation 5 e.w (e.w.loc 0).name.val true = .ok p ∧ (openRoads e.w 0).length = 2 ∧ (openRoads e.w 0).length < 5 ∧
    (openRoads e.w 1).length = 2 ∧ (openRoads p.1 1).length = 1 := by
  obtain ⟨e, hr, hn, h0, hx, h2⟩ := (show Sample.Ends {} Sample.zeros (starNet ++ [.linkUp "B" "C" 9 false none 0]) (fun e => namesOKb e.w = true ∧ 0 < e.w.nLoc ∧
      ((closeLocation 5 e.w (e.w.loc 0).name.val true).toOption.map fun p => (openRoads p.1 1).length) = some 1 ∧
      (openRoads e.w 0).length = 2 ∧ (openRoads e.w 0).length < 5 ∧ (openRoads e.w 1).length = 2)
      by decide +kernel).reach (P := fun _ => True) fun _ _ => trivial
  obtain ⟨p, hw, hx⟩ := Option.map_eq_some_iff.1 hx
  exact ⟨e, p, hr, namesOKb_ok hn, h0, Sample.of_toOption hw, h2.1, h2.2.1, h2.2.2, hx⟩

/-- C32 is false for the one-way variant: reopening brings nothing back. -/
theorem C32_reopen_location_false : ¬ ∀ (c : Cfg) (draws : Nat → ℚ) (e : Eco) (i f₁ f₂ : Nat) (tw : Bool) (w₁ w₂ : World) (b₁ b₂ : Bool),
    Reach c draws e → NamesOK e.w → i < e.w.nLoc → (∀ y < e.w.nLoc, closedRoads e.w y = []) →
    closeLocation f₁ e.w (e.w.loc i).name.val tw = .ok (w₁, b₁) → reopenLocation f₂ w₁ (e.w.loc i).name.val tw = .ok (w₂, b₂) →
    SameOpen e.w w₂ := by
  intro h
  obtain ⟨e, hr, hn, hx, h0, h1, hc⟩ := (show Sample.Ends {} Sample.zeros pairNet (fun e => namesOKb e.w = true ∧
      ((closeLocation 5 e.w (e.w.loc 0).name.val false).toOption.bind fun p => (reopenLocation 5 p.1 (e.w.loc 0).name.val false).toOption.map
        fun q => (openRoads q.1 1).length) = some 0 ∧ 1 < e.w.nLoc ∧ (openRoads e.w 1).length = 1 ∧
        ∀ y < e.w.nLoc, closedRoads e.w y = [])
      by decide +kernel).reach (P := fun _ => True) fun _ _ => trivial
  obtain ⟨⟨w₁, b₁⟩, g1, hx1⟩ := Option.bind_eq_some_iff.1 hx
  obtain ⟨⟨w₂, b₂⟩, g2, hx2⟩ := Option.map_eq_some_iff.1 hx1
  have := (h {} Sample.zeros e 0 5 5 false w₁ w₂ b₁ b₂ hr (namesOKb_ok hn) (by omega) hc (Sample.of_toOption g1)
    (Sample.of_toOption g2) 1 h0).length_eq
  rw [hx2, h1] at this
  cases this

/-- C32, what holds: with the default two-way argument, closing and then reopening a location restores the open roads, and
no closed ones remain. Missing from the full claim: the one-way variant, for which it is false. -/
theorem C32_reopen_location_partial {c : Cfg} {draws : Nat → ℚ} {e : Eco} {i f₁ f₂ : Nat} {w₁ w₂ : World} {b₁ b₂ : Bool}
    (hr : Reach c draws e) (hn : NamesOK e.w) (hi : i < e.w.nLoc) (hc : ∀ y < e.w.nLoc, closedRoads e.w y = [])
    (h₁ : closeLocation f₁ e.w (e.w.loc i).name.val true = .ok (w₁, b₁))
    (h₂ : reopenLocation f₂ w₁ (e.w.loc i).name.val true = .ok (w₂, b₂)) :
    SameOpen e.w w₂ ∧ SameLocs e.w w₂ ∧ ∀ y < e.w.nLoc, closedRoads w₂ y = [] := by
  have hinv := reach_inv hr
  obtain ⟨-, hs, s1, i1, o1, c1, f1⟩ := closeBoth_spec hinv hn hi h₁
  rw [hc i hi, List.nil_append] at c1
  rw [← s1.name i] at h₂
  obtain ⟨s2, i2, c2, o2, f2⟩ := reopenBoth_spec i1 (s1.namesOK hn) (by rw [s1.nLoc]; exact hi)
    (fun r hr => hs r (c1.mem_iff.1 hr)) h₂
  rw [o1, List.nil_append] at o2
  rw [s1.nLoc] at f2
  have hany : ∀ y, (closedRoads w₁ i).any (leads y) = (openRoads e.w i).any (leads y) := fun y => by
    rw [Bool.eq_iff_iff, any_leads, any_leads]
    constructor <;> rintro ⟨r, hr, he⟩
    · exact ⟨r, c1.mem_iff.1 hr, he⟩
    · exact ⟨r, c1.mem_iff.2 hr, he⟩
  refine ⟨fun y hy => ?_, s1.trans s2, fun y hy => ?_⟩
  · by_cases hyi : y = i
    · subst hyi
      exact o2.trans c1
    · rw [(f2 y hy hyi).1, hany, (f1 y hy hyi).1, (f1 y hy hyi).2, hc y hy, List.nil_append]
      cases (openRoads e.w i).any (leads y) with
      | false => simp
      | true =>
        simp only [if_true, List.filter_filter, Bool.and_self]
        exact List.perm_append_comm.trans (filter_compl_perm _ _)
  · by_cases hyi : y = i
    · subst hyi
      exact c2
    · rw [(f2 y hy hyi).2, hany, (f1 y hy hyi).2, hc y hy, List.nil_append]
      cases (openRoads e.w i).any (leads y) with
      | false => simp
      | true =>
        simp only [if_true, List.filter_filter]
        exact List.filter_eq_nil_iff.2 fun r _ => by simp

example : ∃ (e : Eco) (p q : World × Bool), Reach {} Sample.zeros e ∧ NamesOK e.w ∧ 0 < e.w.nLoc ∧
    (∀ y < e.w.nLoc, closedRoads e.w y = []) ∧ closeLocation 5 e.w (e.w.loc 0).name.val true = .ok p ∧
    reopenLocation 5 p.1 (e.w.loc 0).name.val true = .ok q ∧ (openRoads p.1 1).length = 1 ∧ (openRoads q.1 1).length = 2 := by
  obtain ⟨e, hr, hn, hx, h0, hc⟩ := (show Sample.Ends {} Sample.zeros (starNet ++ [.linkUp "B" "C" 9 false none 0]) (fun e => namesOKb e.w = true ∧
      ((closeLocation 5 e.w (e.w.loc 0).name.val true).toOption.bind fun p => (reopenLocation 5 p.1 (e.w.loc 0).name.val true).toOption.map
        fun q => ((openRoads p.1 1).length, (openRoads q.1 1).length)) = some (1, 2) ∧ 0 < e.w.nLoc ∧
        ∀ y < e.w.nLoc, closedRoads e.w y = [])
      by decide +kernel).reach (P := fun _ => True) fun _ _ => trivial
  obtain ⟨p, h1, hx1⟩ := Option.bind_eq_some_iff.1 hx
  obtain ⟨q, h2, hx2⟩ := Option.map_eq_some_iff.1 hx1
  simp only [Prod.mk.injEq] at hx2
  exact ⟨e, p, q, hr, namesOKb_ok hn, h0, hc, Sample.of_toOption h1, Sample.of_toOption h2, hx2⟩

/-- C33, what holds, with distinct names: a two-way closure returns exactly for locations without a link to themselves, a
one-way closure and a two-way reopening always return, and a one-way reopening returns exactly when the location has no
closed link. Missing from the full claim: the other cases, which run forever. -/
theorem C33_closures_terminate_partial {c : Cfg} {draws : Nat → ℚ} {e : Eco} {i : Nat} (hr : Reach c draws e) (hn : NamesOK e.w)
    (hi : i < e.w.nLoc) :
    ((∃ fuel p, closeLocation fuel e.w (e.w.loc i).name.val true = .ok p) ↔ ∀ r ∈ openRoads e.w i, r.endp ≠ i) ∧
    (∃ fuel p, closeLocation fuel e.w (e.w.loc i).name.val false = .ok p) ∧
    (∃ fuel p, reopenLocation fuel e.w (e.w.loc i).name.val true = .ok p) ∧
    ((∃ fuel p, reopenLocation fuel e.w (e.w.loc i).name.val false = .ok p) ↔ closedRoads e.w i = []) := by
  have hinv := reach_inv hr
  refine ⟨⟨?_, fun hs => ?_⟩, ?_, ?_, ⟨?_, fun hc => ?_⟩⟩
  · rintro ⟨fuel, ⟨w', ok⟩, h⟩
    exact (closeBoth_spec hinv hn hi h).2.1
  · obtain ⟨w', h, -⟩ := closeBoth_roads hinv hn hi hs (le_refl _)
    refine ⟨(openRoads e.w i).length + 1, (w', true), ?_⟩
    rw [closeLocation_eq hn.distinct hi]
    simp only [if_true]
    rw [h]
    rfl
  · obtain ⟨w', h, -⟩ := C31_closed_location_incoming hr hn hi (Nat.lt_succ_self _)
    exact ⟨_, _, h⟩
  · obtain ⟨fuel, w', h⟩ := reopenBoth_returns (k := (e.w.loc i).closedLinks.length) (j := 0) hinv hn hi
      (fun l hl => (hinv.lnk i hi l (.inr hl)).1) (le_refl _) (le_refl _)
    refine ⟨fuel, (w', true), ?_⟩
    rw [reopenLocation_eq hn.distinct hi]
    simp only [if_true]
    rw [h]
    rfl
  · rintro ⟨fuel, p, h⟩
    by_contra hne
    have hpos : 0 < (e.w.loc i).closedLinks.length := by
      rw [List.length_pos_iff]
      intro h0
      exact hne (by simp [closedRoads, h0])
    rw [reopenLocation_eq hn.distinct hi] at h
    simp only [Bool.false_eq_true, if_false] at h
    rw [reopenIn_stuck hpos hinv hi] at h
    cases h
  · have h0 : (e.w.loc i).closedLinks = [] := List.map_eq_nil_iff.1 hc
    refine ⟨1, (e.w, true), ?_⟩
    rw [reopenLocation_eq hn.distinct hi, h0]
    rfl

/-- C33 is false: closing a location that has a link to itself never returns, and neither does reopening one-way a
location with closed links. -/
theorem C33_closures_terminate_false :
    (¬ ∀ (c : Cfg) (draws : Nat → ℚ) (e : Eco) (n : String), Reach c draws e → ∃ fuel p, closeLocation fuel e.w n true = .ok p) ∧
    (¬ ∀ (c : Cfg) (draws : Nat → ℚ) (e : Eco) (n : String), Reach c draws e → ∃ fuel p, reopenLocation fuel e.w n false = .ok p) := by
  constructor
  · intro h
    obtain ⟨e, hr, hn, h0, r, hr', he⟩ := (show Sample.Ends {} Sample.zeros (pairNet ++ [.linkUp "A" "A" 3 false none 0])
        (fun e => namesOKb e.w = true ∧ 0 < e.w.nLoc ∧ ∃ r ∈ openRoads e.w 0, r.endp = 0)
        by decide +kernel).reach (P := fun _ => True) fun _ _ => trivial
    exact (C33_closures_terminate_partial hr (namesOKb_ok hn) h0).1.1 (h {} Sample.zeros e _ hr) r hr' he
  · intro h
    obtain ⟨e, hr, hn, h0, hc⟩ := (show Sample.Ends {} Sample.zeros (pairNet ++ [.closeLocation 5 "A" true])
        (fun e => namesOKb e.w = true ∧ 0 < e.w.nLoc ∧ closedRoads e.w 0 ≠ [])
        by decide +kernel).reach (P := fun _ => True) fun _ _ => trivial
    exact hc ((C33_closures_terminate_partial hr (namesOKb_ok hn) h0).2.2.2.1 (h {} Sample.zeros e _ hr))

example : ∃ e : Eco, Reach {} Sample.zeros e ∧ NamesOK e.w ∧ 0 < e.w.nLoc ∧ openRoads e.w 0 ≠ [] ∧ closedRoads e.w 0 ≠ [] := by
  obtain ⟨e, h1, h2, h3⟩ := (show Sample.Ends {} Sample.zeros (starNet ++ [.removeLink ⟨"A", 0⟩ ⟨"B", 1⟩ false true]) (fun e =>
    namesOKb e.w = true ∧ 0 < e.w.nLoc ∧ openRoads e.w 0 ≠ [] ∧ closedRoads e.w 0 ≠ [])
    by decide +kernel).reach (P := fun _ => True) fun _ _ => trivial
  exact ⟨e, h1, namesOKb_ok h2, h3⟩

private theorem filter_border {w : World} {s d : String} {tw : Bool} (rs : List Lnk) :
    rs.filter (fun r => !onBorder w s d tw r) = rs.filter (fun r => decide (¬ Border w s d tw r)) ∧
    rs.filter (onBorder w s d tw) = rs.filter (fun r => decide (Border w s d tw r)) := by
  constructor <;> refine List.filter_congr fun r _ => ?_
  · by_cases h : Border w s d tw r
    · simp [onBorder_iff.2 h, h]
    · have : onBorder w s d tw r = false := by rw [← Bool.not_eq_true]; exact fun h' => h (onBorder_iff.1 h')
      simp [this, h]
  · by_cases h : Border w s d tw r
    · simp [onBorder_iff.2 h, h]
    · have : onBorder w s d tw r = false := by rw [← Bool.not_eq_true]; exact fun h' => h (onBorder_iff.1 h')
      simp [this, h]

/-- C34, closing: `close_border` returns, and afterwards the open roads are exactly those from before that do not cross
the border. -/
theorem C34_close_border {c : Cfg} {draws : Nat → ℚ} {e : Eco} {s d : String} {tw : Bool} (hr : Reach c draws e) (hn : NamesOK e.w) :
    (∃ fuel w', changeBorder fuel e.w s d tw false = .ok w') ∧ ∀ fuel w', changeBorder fuel e.w s d tw false = .ok w' →
      SameLocs e.w w' ∧ ∀ i < e.w.nLoc, (∀ r ∈ openRoads w' i, ¬ Border e.w s d tw r) ∧
        openRoads w' i = (openRoads e.w i).filter (fun r => decide (¬ Border e.w s d tw r)) := by
  have hi := reach_inv hr
  constructor
  · obtain ⟨m, hm⟩ := exists_max e.w.nLoc (fun i => (openRoads e.w i).length)
    obtain ⟨w', h, -⟩ := closeBorder_roads (s := s) (d := d) (tw := tw) hi hn hm
    exact ⟨m, w', h⟩
  · intro fuel w' h
    obtain ⟨s1, -, f1⟩ := closeBorder_spec hi hn h
    refine ⟨s1, fun i hlt => ?_⟩
    have := (f1 i hlt).1
    rw [(filter_border _).1] at this
    refine ⟨fun r hr' => ?_, this⟩
    rw [this] at hr'
    simpa using (List.mem_filter.1 hr').2

/-- C34, reopening, what holds: after closing and reopening, the open roads are those from before together with the roads
across the border that had been closed before. With none of those, the open roads are restored. Missing from the full
claim: networks with such roads, for which it is false. -/
theorem C34_reopen_border_partial {c : Cfg} {draws : Nat → ℚ} {e : Eco} {s d : String} {tw : Bool} {f₁ f₂ : Nat} {w₁ w₂ : World}
    (hr : Reach c draws e) (hn : NamesOK e.w) (h₁ : changeBorder f₁ e.w s d tw false = .ok w₁)
    (h₂ : changeBorder f₂ w₁ s d tw true = .ok w₂) :
    (∀ i < e.w.nLoc, (openRoads w₂ i).Perm (openRoads e.w i ++ (closedRoads e.w i).filter (fun r => decide (Border e.w s d tw r)))) ∧
    ((∀ i < e.w.nLoc, ∀ r ∈ closedRoads e.w i, ¬ Border e.w s d tw r) → SameOpen e.w w₂) := by
  obtain ⟨s1, i1, f1⟩ := closeBorder_spec (reach_inv hr) hn h₁
  obtain ⟨s2, -, f2⟩ := reopenBorder_spec i1 (s1.namesOK hn) h₂
  rw [s1.onBorder, s1.nLoc] at f2
  have key : ∀ i < e.w.nLoc, (openRoads w₂ i).Perm (openRoads e.w i ++ (closedRoads e.w i).filter (fun r => decide (Border e.w s d tw r))) := by
    intro i hlt
    rw [← (filter_border _).2]
    refine ((f2 i hlt).2.trans (List.Perm.append (List.Perm.of_eq (f1 i hlt).1) ((f1 i hlt).2.filter _))).trans ?_
    rw [List.filter_append, List.filter_filter]
    simp only [Bool.and_self]
    refine (List.perm_append_comm_assoc ..).trans ?_
    refine List.perm_append_comm.trans (List.Perm.append_right _ ?_)
    exact List.perm_append_comm.trans (filter_compl_perm _ _)
  refine ⟨key, fun hno i hlt => (key i hlt).trans ?_⟩
  rw [List.filter_eq_nil_iff.2 fun r hr' => by simp [hno i hlt r hr'], List.append_nil]

/-- C34 is false for reopening: a road across the border that was closed before by itself is opened too. -/
theorem C34_reopen_border_false : ¬ ∀ (c : Cfg) (draws : Nat → ℚ) (e : Eco) (s d : String) (tw : Bool) (f₁ f₂ : Nat) (w₁ w₂ : World),
    Reach c draws e → NamesOK e.w → changeBorder f₁ e.w s d tw false = .ok w₁ → changeBorder f₂ w₁ s d tw true = .ok w₂ →
    SameOpen e.w w₂ := by
  intro h
  obtain ⟨e, hr, hn, hx, h0, h1⟩ := (show Sample.Ends {} Sample.zeros (pairNet ++ [.removeLink ⟨"A", 0⟩ ⟨"B", 1⟩ false true]) (fun e => namesOKb e.w = true ∧
      ((changeBorder 5 e.w "X" "Y" true false).toOption.bind fun p => (changeBorder 5 p "X" "Y" true true).toOption.map
        fun q => (openRoads q 0).length) = some 1 ∧ 0 < e.w.nLoc ∧ (openRoads e.w 0).length = 0)
      by decide +kernel).reach (P := fun _ => True) fun _ _ => trivial
  obtain ⟨w₁, g1, hx1⟩ := Option.bind_eq_some_iff.1 hx
  obtain ⟨w₂, g2, hx2⟩ := Option.map_eq_some_iff.1 hx1
  have := (h {} Sample.zeros e _ _ _ 5 5 w₁ w₂ hr (namesOKb_ok hn) (Sample.of_toOption g1) (Sample.of_toOption g2) 0 h0).length_eq
  rw [hx2, h1] at this
  cases this

example : ∃ (e : Eco) (w₁ w₂ : World), Reach {} Sample.zeros e ∧ NamesOK e.w ∧ changeBorder 5 e.w "X" "Y" false false = .ok w₁ ∧
    changeBorder 5 w₁ "X" "Y" false true = .ok w₂ ∧ (∀ i < e.w.nLoc, ∀ r ∈ closedRoads e.w i, ¬ Border e.w "X" "Y" false r) ∧
    (openRoads w₁ 0).length = 1 ∧ (openRoads w₂ 0).length = 2 := by
  obtain ⟨e, hr, hn, hx, h0⟩ := (show Sample.Ends {} Sample.zeros starNet (fun e => namesOKb e.w = true ∧
      ((changeBorder 5 e.w "X" "Y" false false).toOption.bind fun p => (changeBorder 5 p "X" "Y" false true).toOption.map
        fun q => ((openRoads p 0).length, (openRoads q 0).length)) = some (1, 2) ∧
      ∀ i < e.w.nLoc, ∀ r ∈ closedRoads e.w i, ¬ Border e.w "X" "Y" false r)
      by decide +kernel).reach (P := fun _ => True) fun _ _ => trivial
  obtain ⟨w₁, g1, hx1⟩ := Option.bind_eq_some_iff.1 hx
  obtain ⟨w₂, g2, hx2⟩ := Option.map_eq_some_iff.1 hx1
  simp only [Prod.mk.injEq] at hx2
  exact ⟨e, w₁, w₂, hr, namesOKb_ok hn, Sample.of_toOption g1, Sample.of_toOption g2, h0, hx2⟩

/-- C35: a border closure from day `start` to day `stop`, enacted once a day from day 0 on, keeps the border closed on
exactly the days from `start` to before `stop`: on those days the open roads are the initial ones that do not cross the
border, on all others they are the initial ones. -/
theorem C35_closure_schedule {c : Cfg} {draws : Nat → ℚ} {e m : Eco} {row : Closure} {tw : Bool} {t : Nat} (hr : Reach c draws e)
    (hn : NamesOK e.w) (hrow : e.closures = [row]) (hk : row.kind = "country") (h0 : 0 ≤ row.start) (hlt : row.start < row.stop)
    (hopen : ∀ i < e.w.nLoc, ∀ r ∈ closedRoads e.w i, ¬ Border e.w row.source.val row.dest.val tw r) (h : Daily c tw e t m) :
    m.w.nLoc = e.w.nLoc ∧
    (row.start ≤ t ∧ t < row.stop → ∀ i < e.w.nLoc, (openRoads m.w i).Perm
      ((openRoads e.w i).filter (fun r => decide (¬ Border e.w row.source.val row.dest.val tw r)))) ∧
    (¬ (row.start ≤ t ∧ t < row.stop) → SameOpen e.w m.w) := by
  have g := daily_held (reach_inv hr) hn (fun i hi r hr' => by
    rw [← Bool.not_eq_true]
    exact fun h' => hopen i hi r hr' (onBorder_iff.1 h')) hrow hk h0 hlt h
  refine ⟨g.nLoc, fun hin i hi => ?_, fun hout i hi => ?_⟩
  · have := g.opn i hi
    rwa [decide_eq_true hin, if_pos rfl, (filter_border _).1] at this
  · have := g.opn i hi
    rwa [decide_eq_false hout, if_neg (by simp)] at this

example : ∃ (e m : Eco) (row : Closure), Reach {} Sample.zeros e ∧ NamesOK e.w ∧ e.closures = [row] ∧ row.kind = "country" ∧
    0 ≤ row.start ∧ row.start < row.stop ∧ (∀ i < e.w.nLoc, ∀ r ∈ closedRoads e.w i, ¬ Border e.w row.source.val row.dest.val true r) ∧
    Daily {} true e 1 m ∧ (row.start ≤ (1 : Nat) ∧ ((1 : Nat) : Int) < row.stop) ∧ (openRoads m.w 0).length = 1 := by
  obtain ⟨e, hr, hn, hrow, hb, hx⟩ := (show Sample.Ends {} Sample.zeros (starNet ++ [.addAgent 0 [], .setClosures [⟨"country", ⟨"X", 20⟩, ⟨"Y", 21⟩, 1, 3⟩]])
      (fun e => namesOKb e.w = true ∧ e.closures = [⟨"country", ⟨"X", 20⟩, ⟨"Y", 21⟩, 1, 3⟩] ∧
      (∀ i < e.w.nLoc, ∀ r ∈ closedRoads e.w i, ¬ Border e.w "X" "Y" true r) ∧
      (((Op.enactClosures 5 0 true).exec {} e).toOption.bind fun m => ((Op.evolve 5).exec {} m).toOption.bind fun m =>
        ((Op.enactClosures 5 1 true).exec {} m).toOption.map fun m => (openRoads m.w 0).length) = some 1)
      by decide +kernel).reach (P := fun _ => True) fun _ _ => trivial
  obtain ⟨m1, g1, hx⟩ := Option.bind_eq_some_iff.1 hx
  obtain ⟨m2, g2, hx⟩ := Option.bind_eq_some_iff.1 hx
  obtain ⟨m3, g3, hx⟩ := Option.map_eq_some_iff.1 hx
  refine ⟨e, m3, _, hr, namesOKb_ok hn, hrow, rfl, by decide, by decide, hb, ?_, by decide, hx⟩
  exact Daily.next (.quiet (op := .evolve 5) (.first (Sample.of_toOption g1)) trivial (Sample.of_toOption g2)) (Sample.of_toOption g3)

/-- C66: the exported vertices are the names of the locations, each once and in order; every edge joins two locations; and an
edge occurs as often as there are open links with its ends and length. -/
theorem C66_exported_graph {c : Cfg} {draws : Nat → ℚ} {e : Eco} (hr : Reach c draws e) (hn : DistinctNames e.w) :
    (exportGraph e.w).1.length = e.w.nLoc ∧ (exportGraph e.w).1.Nodup ∧
    (∀ i < e.w.nLoc, (exportGraph e.w).1[i]? = some (e.w.loc i).name.val) ∧
    (∀ x ∈ (exportGraph e.w).2, ∃ a < e.w.nLoc, ∃ b < e.w.nLoc, x.1 = (e.w.loc a).name.val ∧ x.2.1 = (e.w.loc b).name.val) ∧
    (∀ a < e.w.nLoc, ∀ b < e.w.nLoc, ∀ x : ℚ,
      (exportGraph e.w).2.count ((e.w.loc a).name.val, (e.w.loc b).name.val, x) =
        (openRoads e.w a).countP (fun r => decide (r.endp = b ∧ r.dist = x))) := by
  have hi := reach_inv hr
  refine ⟨by simp [exportGraph], ?_, fun i hlt => by simp [exportGraph, hlt], ?_, ?_⟩
  · refine (List.nodup_map_iff_inj_on List.nodup_range).2 fun i h j h' he => ?_
    exact hn i (List.mem_range.1 h) j (List.mem_range.1 h') he
  · intro x hx
    obtain ⟨a, ha, hx⟩ := List.mem_flatMap.1 hx
    obtain ⟨l, hl, rfl⟩ := List.mem_map.1 hx
    have ha := List.mem_range.1 ha
    exact ⟨a, ha, _, (hi.ends l (hi.lnk a ha l (.inl hl)).1).2, rfl, rfl⟩
  · intro a ha b hb x
    unfold exportGraph
    dsimp only
    rw [List.count_flatMap]
    have hz : ∀ i < e.w.nLoc, i ≠ a → ((e.w.loc i).links.map fun l => ((e.w.loc i).name.val, (e.w.epName l).val, (e.w.link l).dist)).count
        ((e.w.loc a).name.val, (e.w.loc b).name.val, x) = 0 := by
      intro i hlt hne
      rw [List.count_eq_zero]
      intro hm
      obtain ⟨l, -, he⟩ := List.mem_map.1 hm
      simp only [Prod.mk.injEq] at he
      exact hne (hn i hlt a ha he.1)
    have hone : ((e.w.loc a).links.map fun l => ((e.w.loc a).name.val, (e.w.epName l).val, (e.w.link l).dist)).count
        ((e.w.loc a).name.val, (e.w.loc b).name.val, x) = (openRoads e.w a).countP (fun r => decide (r.endp = b ∧ r.dist = x)) := by
      rw [openRoads, List.countP_map, List.count, List.countP_map]
      refine List.countP_congr fun l hl => ?_
      have hend := (hi.ends l (hi.lnk a ha l (.inl hl)).1).2
      simp only [Function.comp, beq_iff_eq, Prod.mk.injEq, true_and, decide_eq_true_eq]
      constructor
      · rintro ⟨h1, h2⟩
        exact ⟨hn _ hend b hb h1, h2⟩
      · rintro ⟨h1, h2⟩
        refine ⟨?_, h2⟩
        show (e.w.loc (road e.w l).endp).name.val = _
        rw [h1]
    rw [← hone]
    have sum_one : ∀ (f : Nat → Nat) (n : Nat), (∀ i < n, i ≠ a → f i = 0) → ((List.range n).map f).sum = if a < n then f a else 0 := by
      intro f n
      induction n with
      | zero => intro _; rfl
      | succ n ih =>
        intro hf
        rw [List.range_succ, List.map_append, List.sum_append, ih fun i hi' hne => hf i (by omega) hne]
        simp only [List.map_cons, List.map_nil, List.sum_cons, List.sum_nil, Nat.add_zero]
        by_cases hna : n = a
        · subst hna; simp
        · rw [hf n (by omega) hna]
          by_cases han : a < n
          · rw [if_pos han, if_pos (by omega)]; rfl
          · rw [if_neg han, if_neg (by omega)]
    have := sum_one (fun i => ((e.w.loc i).links.map fun l => ((e.w.loc i).name.val, (e.w.epName l).val, (e.w.link l).dist)).count
        ((e.w.loc a).name.val, (e.w.loc b).name.val, x)) e.w.nLoc hz
    rw [if_pos ha] at this
    exact this

/-- C66: the links behind the exported edges start where they are listed and are open. -/
theorem C66_exported_links_open {c : Cfg} {draws : Nat → ℚ} {e : Eco} (hr : Reach c draws e) {i l : Nat} (hi : i < e.w.nLoc)
    (hl : l ∈ (e.w.loc i).links) : (e.w.link l).closed = false ∧ (e.w.link l).start = i ∧ l ∉ (e.w.loc i).closedLinks := by
  have h := reach_inv hr
  refine ⟨h.opn i hi l hl, (h.lnk i hi l (.inl hl)).2, fun hc => ?_⟩
  have := h.opn i hi l hl
  rw [h.cls i hi l hc] at this
  cases this

example : ∃ e : Eco, Reach {} Sample.zeros e ∧ DistinctNames e.w ∧ e.w.nLoc = 3 ∧ (exportGraph e.w).2 = [("A", "C", 70), ("B", "A", 500), ("C", "A", 70)] ∧
    2 ∈ (e.w.loc 0).links := by
  obtain ⟨e, h1, h2, h3⟩ := (show Sample.Ends {} Sample.zeros (starNet ++ [.removeLink ⟨"A", 0⟩ ⟨"B", 1⟩ false true]) (fun e =>
    namesOKb e.w = true ∧ e.w.nLoc = 3 ∧ (exportGraph e.w).2 = [("A", "C", 70), ("B", "A", 500), ("C", "A", 70)] ∧ 2 ∈ (e.w.loc 0).links)
    by decide +kernel).reach (P := fun _ => True) fun _ _ => trivial
  exact ⟨e, h1, (namesOKb_ok h2).distinct, h3⟩

end Flee
