import Verif.Spec.Attributes

/-!
Attributes of locations and links: C87, C88.
-/

namespace Flee

open Spec

/-! ### C87 -/

/-- C87, full claim: setting an attribute of one location changes this attribute of this location and nothing else. -/
def C87_claim : Prop := ∀ (ops : List AttrOp) (h h' : AttrHeap) (i : Nat) (k : String) (v : AttrVal),
  AttrHeap.empty.run ops = .ok h → (AttrOp.setLocation i k v).exec h = .ok h' → i < h.locs.length →
  (∃ d d', h.ofLocation i = some d ∧ h'.ofLocation i = some d' ∧ SetTo d d' k v) ∧
  (∀ j, j ≠ i → h'.ofLocation j = h.ofLocation j) ∧ ∀ j, h'.ofLink j = h.ofLink j

/-- C87 is false: two locations that are added without attributes share them. -/
theorem C87_isolation_false : ¬ C87_claim := by
  intro hc
  obtain ⟨-, h2, -⟩ := hc [.addLocation "A" none, .addLocation "B" none] _ _ 0 "flood_level" (.num 2) rfl rfl (by decide)
  have := congrArg (Option.map fun d : AttrDict => d "flood_level") (h2 1 (by decide))
  revert this
  decide

/-- The dictionaries in use are different from each other and from those to come. -/
structure Isolated (h : AttrHeap) : Prop where
  locs : (h.locs.map (·.2)).Nodup
  bound : (∀ p ∈ h.locs, p.2 < h.next) ∧ ∀ d ∈ h.links, d < h.next
  apart : ∀ p ∈ h.locs, p.2 ∉ h.links
  pairs : ∀ i j d, h.links[i]? = some d → h.links[j]? = some d → i / 2 = j / 2
  even : h.links.length % 2 = 0

theorem updateFrom_frame {attr : String} {table : List (String × List Int)} {t : Nat} : ∀ {ps : List (String × Nat)}
    {h h' : AttrHeap}, AttrHeap.updateFrom attr table t ps h = .ok h' →
    h'.next = h.next ∧ h'.locs = h.locs ∧ h'.links = h.links
  | [], h, h', hu => by
    cases Except.ok.inj hu
    exact ⟨rfl, rfl, rfl⟩
  | p :: ps, h, h', hu => by
    simp only [AttrHeap.updateFrom] at hu
    cases hv : attrValue attr table t p.1 with
    | error => rw [hv] at hu; cases hu
    | ok v =>
      rw [hv] at hu
      exact updateFrom_frame (h := h.write p.2 attr v) hu

theorem Isolated.of_frame {h h' : AttrHeap} (hi : Isolated h) (hf : h'.next = h.next ∧ h'.locs = h.locs ∧ h'.links = h.links) :
    Isolated h' := by
  obtain ⟨h1, h2, h3⟩ := hf
  obtain ⟨a, b, c, d, e⟩ := hi
  exact ⟨by rwa [h2], by rwa [h1, h2, h3], by rwa [h2, h3], by rwa [h3], by rwa [h3]⟩

theorem Isolated.exec {h h' : AttrHeap} {op : AttrOp} (hi : Isolated h) (ho : OwnAttrs [op]) (hx : op.exec h = .ok h') :
    Isolated h' := by
  cases op with
  | addLocation n a =>
    cases a with
    | none => exact absurd rfl ho.1
    | some d =>
      cases Except.ok.inj hx
      obtain ⟨h1, ⟨h2, h2'⟩, h3, h4, h5⟩ := hi
      refine ⟨?_, ⟨?_, ?_⟩, ?_, h4, h5⟩
      · simp only [AttrHeap.addLocation, AttrHeap.arg, List.map_append, List.map_cons, List.map_nil]
        rw [List.nodup_append]
        refine ⟨h1, by simp, ?_⟩
        intro x hx y hy hxy
        obtain ⟨p, hp, rfl⟩ := List.mem_map.1 hx
        rw [List.mem_singleton] at hy
        have := h2 p hp
        omega
      · intro p hp
        rcases List.mem_append.1 hp with hp | hp
        · exact (h2 p hp).trans (Nat.lt_succ_self _)
        · rw [List.mem_singleton] at hp
          subst hp
          exact Nat.lt_succ_self _
      · intro d hd
        exact (h2' d hd).trans (Nat.lt_succ_self _)
      · intro p hp
        rcases List.mem_append.1 hp with hp | hp
        · exact h3 p hp
        · rw [List.mem_singleton] at hp
          subst hp
          intro hm
          exact absurd (h2' _ hm) (lt_irrefl _)
  | linkUp a =>
    cases a with
    | none => exact absurd rfl ho.1
    | some d =>
      cases Except.ok.inj hx
      obtain ⟨h1, ⟨h2, h2'⟩, h3, h4, h5⟩ := hi
      have hm : ∀ d', d' ∈ h.links ++ [h.next, h.next] ↔ d' ∈ h.links ∨ d' = h.next := by simp
      refine ⟨h1, ⟨fun p hp => (h2 p hp).trans (Nat.lt_succ_self _), fun d' hd => ?_⟩, fun p hp hd => ?_, ?_, ?_⟩
      · rcases (hm d').1 hd with hd | rfl
        · exact (h2' _ hd).trans (Nat.lt_succ_self _)
        · exact Nat.lt_succ_self _
      · rcases (hm p.2).1 hd with hd | hd
        · exact h3 p hp hd
        · exact absurd (h2 p hp) (by omega)
      · intro i j d' hi hj
        simp only [AttrHeap.linkUp, AttrHeap.arg] at hi hj
        rw [List.getElem?_append] at hi hj
        split at hi
        · have hlt := h2' d' (List.mem_of_getElem? hi)
          split at hj
          · exact h4 i j d' hi hj
          · have := List.mem_of_getElem? hj
            simp at this
            omega
        · have hi' := (List.getElem?_eq_some_iff.1 hi).1
          have hnx : d' = h.next := by
            have := List.mem_of_getElem? hi
            simpa using this
          split at hj
          · have := h2' d' (List.mem_of_getElem? hj)
            omega
          · have hj' := (List.getElem?_eq_some_iff.1 hj).1
            simp at hi' hj'
            omega
      · show (h.links ++ [h.next, h.next]).length % 2 = 0
        rw [List.length_append, List.length_cons, List.length_cons, List.length_nil]
        omega
  | setLocation i k v =>
    cases Except.ok.inj hx
    refine hi.of_frame ?_
    unfold AttrHeap.setLocation
    split <;> exact ⟨rfl, rfl, rfl⟩
  | setLink i k v =>
    cases Except.ok.inj hx
    refine hi.of_frame ?_
    unfold AttrHeap.setLink
    split <;> exact ⟨rfl, rfl, rfl⟩
  | update a tb t => exact hi.of_frame (updateFrom_frame hx)

theorem run_isolated : ∀ {ops : List AttrOp} {h h' : AttrHeap}, Isolated h → OwnAttrs ops → h.run ops = .ok h' → Isolated h'
  | [], h, h', hi, _, hr => by
    cases Except.ok.inj hr
    exact hi
  | op :: ops, h, h', hi, ho, hr => by
    simp only [AttrHeap.run] at hr
    cases hx : op.exec h with
    | error => rw [hx] at hr; cases hr
    | ok h1 =>
      rw [hx] at hr
      have hop : OwnAttrs [op] ∧ OwnAttrs ops := by
        cases op <;> simp_all [OwnAttrs]
      exact run_isolated (hi.exec hop.1 hx) hop.2 hr

theorem isolated_empty : Isolated AttrHeap.empty :=
  ⟨List.nodup_nil, ⟨fun _ hp => (List.not_mem_nil hp).elim, fun _ hp => (List.not_mem_nil hp).elim⟩,
    fun _ hp => (List.not_mem_nil hp).elim, fun _ _ _ h => by simp [AttrHeap.empty] at h, rfl⟩

theorem write_dict (h : AttrHeap) (id : Nat) (k : String) (v : AttrVal) (i : Nat) (hi : i ≠ id) :
    (h.write id k v).dict i = h.dict i := if_neg hi

theorem write_set (h : AttrHeap) (id : Nat) (k : String) (v : AttrVal) : SetTo (h.dict id) ((h.write id k v).dict id) k v := by
  unfold AttrHeap.write AttrDict.set SetTo
  simp +contextual

theorem Isolated.distinct {h : AttrHeap} (hi : Isolated h) {i j : Nat} {p q : String × Nat} (hp : h.locs[i]? = some p)
    (hq : h.locs[j]? = some q) (hij : j ≠ i) : q.2 ≠ p.2 := by
  intro he
  obtain ⟨hi1, rfl⟩ := List.getElem?_eq_some_iff.1 hp
  obtain ⟨hj1, rfl⟩ := List.getElem?_eq_some_iff.1 hq
  exact hij (List.getElem_inj (xs := h.locs.map (·.2)) (h₀ := by simpa using hj1) (h₁ := by simpa using hi1) hi.locs |>.1
    (by simpa using he))

/-- C87 if every call so far that made locations and links was given attributes of its own, as all calls are that come from
input files. Missing from the full claim: locations added without attributes (`C87_isolation_false`). -/
theorem C87_isolation_partial {ops : List AttrOp} {h h' : AttrHeap} {i : Nat} {k : String} {v : AttrVal} (ho : OwnAttrs ops)
    (hr : AttrHeap.empty.run ops = .ok h) (hx : (AttrOp.setLocation i k v).exec h = .ok h') (hi : i < h.locs.length) :
    (∃ d d', h.ofLocation i = some d ∧ h'.ofLocation i = some d' ∧ SetTo d d' k v) ∧
    (∀ j, j ≠ i → h'.ofLocation j = h.ofLocation j) ∧ ∀ j, h'.ofLink j = h.ofLink j := by
  have hiso := run_isolated isolated_empty ho hr
  cases Except.ok.inj hx
  obtain ⟨p, hp⟩ : ∃ p, h.locs[i]? = some p := ⟨_, List.getElem?_eq_getElem hi⟩
  have hl : (h.setLocation i k v) = h.write p.2 k v := by simp only [AttrHeap.setLocation, hp]
  rw [hl]
  refine ⟨⟨_, _, by rw [AttrHeap.ofLocation, hp]; rfl, ?_, write_set h p.2 k v⟩, fun j hj => ?_, fun j => ?_⟩
  · show (h.locs[i]?).map _ = _
    rw [hp]
    rfl
  · show (h.locs[j]?).map _ = (h.locs[j]?).map _
    cases hq : h.locs[j]? with
    | none => rfl
    | some q => exact congrArg some (write_dict h p.2 k v q.2 (hiso.distinct hp hq hj))
  · show (h.links[j]?).map _ = (h.links[j]?).map _
    cases hq : h.links[j]? with
    | none => rfl
    | some d =>
      refine congrArg some (write_dict h p.2 k v d fun he => ?_)
      exact hiso.apart p (List.mem_of_getElem? hp) (he ▸ List.mem_of_getElem? hq)

/-- C87 for links, under the same condition: the attribute changes for both directions of the road and for nothing else. -/
theorem C87_links_partial {ops : List AttrOp} {h h' : AttrHeap} {i : Nat} {k : String} {v : AttrVal} (ho : OwnAttrs ops)
    (hr : AttrHeap.empty.run ops = .ok h) (hx : (AttrOp.setLink i k v).exec h = .ok h') (hi : i < h.links.length) :
    (∃ d d', h.ofLink i = some d ∧ h'.ofLink i = some d' ∧ SetTo d d' k v) ∧
    (∀ j, j / 2 ≠ i / 2 → h'.ofLink j = h.ofLink j) ∧ ∀ j, h'.ofLocation j = h.ofLocation j := by
  have hiso := run_isolated isolated_empty ho hr
  cases Except.ok.inj hx
  obtain ⟨p, hp⟩ : ∃ p, h.links[i]? = some p := ⟨_, List.getElem?_eq_getElem hi⟩
  have hl : (h.setLink i k v) = h.write p k v := by simp only [AttrHeap.setLink, hp]
  rw [hl]
  refine ⟨⟨_, _, by rw [AttrHeap.ofLink, hp]; rfl, ?_, write_set h p k v⟩, fun j hj => ?_, fun j => ?_⟩
  · show (h.links[i]?).map _ = _
    rw [hp]
    rfl
  · show (h.links[j]?).map _ = (h.links[j]?).map _
    cases hq : h.links[j]? with
    | none => rfl
    | some q =>
      refine congrArg some (write_dict h p k v q fun he => hj ?_)
      exact hiso.pairs j i p (he ▸ hq) hp
  · show (h.locs[j]?).map _ = (h.locs[j]?).map _
    cases hq : h.locs[j]? with
    | none => rfl
    | some q =>
      refine congrArg some (write_dict h p k v q.2 fun he => ?_)
      exact hiso.apart q (List.mem_of_getElem? hq) (he ▸ List.mem_of_getElem? hp)

/-- Two locations with attributes of their own and a road between them. -/
example : ∃ ops h, OwnAttrs ops ∧ AttrHeap.empty.run ops = .ok h ∧ 1 < h.locs.length ∧ 1 < h.links.length ∧
    (h.ofLocation 1).map (fun d => d "deactivation_probability") = some (some (.str "0.5")) :=
  ⟨[.addLocation "A" (some fun _ => none), .addLocation "B" (some fun k => if k = "deactivation_probability" then some (.str "0.5") else none),
    .linkUp (some fun _ => none)], _, by simp [OwnAttrs], rfl, by decide, by decide, by decide⟩

/-- Locations do not have the dictionaries of links, whatever the calls were given. -/
structure TwoKinds (h : AttrHeap) : Prop where
  two : 2 ≤ h.next
  locs : ∀ p ∈ h.locs, p.2 < h.next ∧ p.2 ≠ 1
  links : ∀ d ∈ h.links, d < h.next ∧ d ≠ 0
  apart : ∀ p ∈ h.locs, p.2 ∉ h.links

theorem TwoKinds.of_frame {h h' : AttrHeap} (hi : TwoKinds h) (hf : h'.next = h.next ∧ h'.locs = h.locs ∧ h'.links = h.links) :
    TwoKinds h' := by
  obtain ⟨h1, h2, h3⟩ := hf
  obtain ⟨a, b, c, d⟩ := hi
  exact ⟨by rwa [h1], by rwa [h1, h2], by rwa [h1, h3], by rwa [h2, h3]⟩

theorem TwoKinds.exec {h h' : AttrHeap} {op : AttrOp} (hi : TwoKinds h) (hx : op.exec h = .ok h') : TwoKinds h' := by
  cases op with
  | addLocation n a =>
    cases Except.ok.inj hx
    obtain ⟨h1, h2, h3, h4⟩ := hi
    cases a with
    | none =>
      refine ⟨h1, fun p hp => ?_, h3, fun p hp => ?_⟩ <;> rcases List.mem_append.1 hp with hp | hp
      · exact h2 p hp
      · rw [List.mem_singleton] at hp
        subst hp
        exact ⟨show 0 < h.next by omega, show (0 : Nat) ≠ 1 by decide⟩
      · exact h4 p hp
      · rw [List.mem_singleton] at hp
        subst hp
        exact fun hm => (h3 _ hm).2 rfl
    | some d =>
      refine ⟨Nat.le_succ_of_le h1, fun p hp => ?_, fun d hd => ⟨Nat.lt_succ_of_lt (h3 d hd).1, (h3 d hd).2⟩, fun p hp => ?_⟩ <;>
        rcases List.mem_append.1 hp with hp | hp
      · exact ⟨Nat.lt_succ_of_lt (h2 p hp).1, (h2 p hp).2⟩
      · rw [List.mem_singleton] at hp
        subst hp
        exact ⟨Nat.lt_succ_self _, show h.next ≠ 1 by omega⟩
      · exact h4 p hp
      · rw [List.mem_singleton] at hp
        subst hp
        exact fun hm => lt_irrefl _ (h3 _ hm).1
  | linkUp a =>
    cases Except.ok.inj hx
    obtain ⟨h1, h2, h3, h4⟩ := hi
    cases a with
    | none =>
      have hm : ∀ d', d' ∈ h.links ++ [1, 1] ↔ d' ∈ h.links ∨ d' = 1 := by simp
      refine ⟨h1, h2, fun d hd => ?_, fun p hp hd => ?_⟩
      · rcases (hm d).1 hd with hd | rfl
        · exact h3 d hd
        · exact ⟨show 1 < h.next by omega, by decide⟩
      · rcases (hm _).1 hd with hd | hd
        · exact h4 p hp hd
        · exact (h2 p hp).2 hd
    | some d =>
      have hm : ∀ d', d' ∈ h.links ++ [h.next, h.next] ↔ d' ∈ h.links ∨ d' = h.next := by simp
      refine ⟨Nat.le_succ_of_le h1, fun p hp => ⟨Nat.lt_succ_of_lt (h2 p hp).1, (h2 p hp).2⟩, fun d hd => ?_, fun p hp hd => ?_⟩
      · rcases (hm d).1 hd with hd | rfl
        · exact ⟨Nat.lt_succ_of_lt (h3 d hd).1, (h3 d hd).2⟩
        · exact ⟨Nat.lt_succ_self _, by omega⟩
      · rcases (hm _).1 hd with hd | hd
        · exact h4 p hp hd
        · have := (h2 p hp).1
          omega
  | setLocation i k v =>
    cases Except.ok.inj hx
    refine hi.of_frame ?_
    unfold AttrHeap.setLocation
    split <;> exact ⟨rfl, rfl, rfl⟩
  | setLink i k v =>
    cases Except.ok.inj hx
    refine hi.of_frame ?_
    unfold AttrHeap.setLink
    split <;> exact ⟨rfl, rfl, rfl⟩
  | update a tb t => exact hi.of_frame (updateFrom_frame hx)

theorem run_twoKinds : ∀ {ops : List AttrOp} {h h' : AttrHeap}, TwoKinds h → h.run ops = .ok h' → TwoKinds h'
  | [], h, h', hi, hr => by
    cases Except.ok.inj hr
    exact hi
  | op :: ops, h, h', hi, hr => by
    simp only [AttrHeap.run] at hr
    cases hx : op.exec h with
    | error => rw [hx] at hr; cases hr
    | ok h1 =>
      rw [hx] at hr
      exact run_twoKinds (hi.exec hx) hr

theorem twoKinds_empty : TwoKinds AttrHeap.empty :=
  ⟨le_refl _, fun _ hp => (List.not_mem_nil hp).elim, fun _ hp => (List.not_mem_nil hp).elim, fun _ hp => (List.not_mem_nil hp).elim⟩

/-- C87, after any calls: setting an attribute of a location sets it there and leaves all links as they are. Missing from the full
claim: other locations (`C87_isolation_false`). -/
theorem C87_kinds_partial {ops : List AttrOp} {h h' : AttrHeap} {i : Nat} {k : String} {v : AttrVal}
    (hr : AttrHeap.empty.run ops = .ok h) (hx : (AttrOp.setLocation i k v).exec h = .ok h') (hi : i < h.locs.length) :
    (∃ d d', h.ofLocation i = some d ∧ h'.ofLocation i = some d' ∧ SetTo d d' k v) ∧ ∀ j, h'.ofLink j = h.ofLink j := by
  have hk := run_twoKinds twoKinds_empty hr
  cases Except.ok.inj hx
  obtain ⟨p, hp⟩ : ∃ p, h.locs[i]? = some p := ⟨_, List.getElem?_eq_getElem hi⟩
  have hl : (h.setLocation i k v) = h.write p.2 k v := by simp only [AttrHeap.setLocation, hp]
  rw [hl]
  refine ⟨⟨_, _, by rw [AttrHeap.ofLocation, hp]; rfl, ?_, write_set h p.2 k v⟩, fun j => ?_⟩
  · show (h.locs[i]?).map _ = _
    rw [hp]
    rfl
  · show (h.links[j]?).map _ = (h.links[j]?).map _
    cases hq : h.links[j]? with
    | none => rfl
    | some d =>
      refine congrArg some (write_dict h p.2 k v d fun he => ?_)
      exact hk.apart p (List.mem_of_getElem? hp) (he ▸ List.mem_of_getElem? hq)

/-- C87 for links, after any calls: setting an attribute of a link leaves all locations as they are. Missing from the full claim:
other links. -/
theorem C87_link_kinds_partial {ops : List AttrOp} {h h' : AttrHeap} {i : Nat} {k : String} {v : AttrVal}
    (hr : AttrHeap.empty.run ops = .ok h) (hx : (AttrOp.setLink i k v).exec h = .ok h') :
    ∀ j, h'.ofLocation j = h.ofLocation j := by
  have hk := run_twoKinds twoKinds_empty hr
  cases Except.ok.inj hx
  intro j
  unfold AttrHeap.setLink
  split
  · rename_i d hd
    show (h.locs[j]?).map _ = (h.locs[j]?).map _
    cases hq : h.locs[j]? with
    | none => rfl
    | some p =>
      refine congrArg some (write_dict h d k v p.2 fun he => ?_)
      exact hk.apart p (List.mem_of_getElem? hq) (he ▸ List.mem_of_getElem? hd)
  · rfl

/-- Locations and a road that were added without attributes. -/
example : ∃ (ops : List AttrOp) (h : AttrHeap), AttrHeap.empty.run ops = .ok h ∧ h.locs = [("A", 0), ("B", 0)] ∧ h.links = [1, 1] :=
  ⟨[.addLocation "A" none, .addLocation "B" none, .linkUp none], _, rfl, by decide, by decide⟩

/-! ### C88 -/

/-- C88, full claim: after an update from a table every location has the value that the table gives to it. -/
def C88_claim : Prop := ∀ (ops : List AttrOp) (h h' : AttrHeap) (attr : String) (table : List (String × List Int)) (t : Nat),
  AttrHeap.empty.run ops = .ok h → (AttrOp.update attr table t).exec h = .ok h' →
  ∀ i p, h.locs[i]? = some p → ∃ d v, h'.ofLocation i = some d ∧ TableValue attr table t p.1 v ∧ d attr = some v

/-- C88 is false: both locations have the value of the second. -/
theorem C88_update_false : ¬ C88_claim := by
  intro hc
  obtain ⟨d, v, h1, h2, h3⟩ := hc [.addLocation "A" none, .addLocation "B" none] _ _ "flood_level" [("A", [2]), ("B", [0])] 0
    rfl rfl 0 ("A", 0) rfl
  have hd : d "flood_level" = some (.num 0) := by
    cases h1
    decide
  rw [hd] at h3
  cases h3
  simp [TableValue] at h2

theorem attrValue_iff {attr : String} {table : List (String × List Int)} {t : Nat} {name : String} {v : AttrVal} :
    attrValue attr table t name = .ok v ↔ TableValue attr table t name v := by
  unfold attrValue TableValue
  by_cases ha : attr = "forecast_flood_levels"
  · subst ha
    cases hl : table.lookup name with
    | some col => simp [eq_comm]
    | none =>
      cases table with
      | nil => simp
      | cons p ps => simp [eq_comm]
  · cases hl : table.lookup name with
    | some col =>
      cases hc : col[t]? with
      | none => simp [ha, hc]
      | some x => simp [ha, hc, eq_comm]
    | none => simp [ha, eq_comm]

theorem updateFrom_ok {attr : String} {table : List (String × List Int)} {t : Nat} : ∀ {ps : List (String × Nat)}
    {h h' : AttrHeap}, (ps.map (·.2)).Nodup → AttrHeap.updateFrom attr table t ps h = .ok h' →
    (∀ p ∈ ps, ∃ v, TableValue attr table t p.1 v ∧ SetTo (h.dict p.2) (h'.dict p.2) attr v) ∧
    ∀ d, d ∉ ps.map (·.2) → h'.dict d = h.dict d
  | [], h, h', _, hu => by
    cases Except.ok.inj hu
    exact ⟨fun _ hp => (List.not_mem_nil hp).elim, fun _ _ => rfl⟩
  | p :: ps, h, h', hnd, hu => by
    simp only [AttrHeap.updateFrom] at hu
    obtain ⟨hp, hnd⟩ := List.nodup_cons.1 hnd
    cases hv : attrValue attr table t p.1 with
    | error => rw [hv] at hu; cases hu
    | ok v =>
      rw [hv] at hu
      obtain ⟨h1, h2⟩ := updateFrom_ok (h := h.write p.2 attr v) hnd hu
      refine ⟨fun q hq => ?_, fun d hd => ?_⟩
      · rcases List.mem_cons.1 hq with rfl | hq
        · refine ⟨v, attrValue_iff.1 hv, ?_⟩
          rw [h2 _ hp]
          exact write_set h _ attr v
        · obtain ⟨v', h3, h4⟩ := h1 q hq
          refine ⟨v', h3, ?_⟩
          rwa [write_dict h p.2 attr v q.2 fun he => hp (List.mem_map.2 ⟨q, hq, he⟩)] at h4
      · rw [List.map_cons, List.mem_cons, not_or] at hd
        rw [h2 d hd.2, write_dict h p.2 attr v d hd.1]

/-- C88 if every call so far was given attributes of its own: after the update every location has the value that the table
gives to it, its other attributes are as before, and so are those of the links. Missing from the full claim: locations added
without attributes (`C88_update_false`). -/
theorem C88_update_partial {ops : List AttrOp} {h h' : AttrHeap} {attr : String} {table : List (String × List Int)} {t : Nat}
    (ho : OwnAttrs ops) (hr : AttrHeap.empty.run ops = .ok h) (hx : (AttrOp.update attr table t).exec h = .ok h') :
    (∀ i p, h.locs[i]? = some p → ∃ d d' v, h.ofLocation i = some d ∧ h'.ofLocation i = some d' ∧
      TableValue attr table t p.1 v ∧ SetTo d d' attr v) ∧ ∀ j, h'.ofLink j = h.ofLink j := by
  have hiso := run_isolated isolated_empty ho hr
  obtain ⟨-, hl1, hl2⟩ := updateFrom_frame hx
  obtain ⟨h1, h2⟩ := updateFrom_ok hiso.locs hx
  refine ⟨fun i p hp => ?_, fun j => ?_⟩
  · obtain ⟨v, h3, h4⟩ := h1 p (List.mem_of_getElem? hp)
    exact ⟨_, _, v, by rw [AttrHeap.ofLocation, hp]; rfl, by rw [AttrHeap.ofLocation, hl1, hp]; rfl, h3, h4⟩
  · unfold AttrHeap.ofLink
    rw [hl2]
    cases hq : h.links[j]? with
    | none => rfl
    | some d =>
      refine congrArg some (h2 d fun hm => ?_)
      obtain ⟨p, hp, rfl⟩ := List.mem_map.1 hm
      exact hiso.apart p hp (List.mem_of_getElem? hq)

/-- The update succeeds if the table has an entry for the day for each of its names. -/
theorem C88_returns {h : AttrHeap} {attr : String} {table : List (String × List Int)} {t : Nat} (hne : table ≠ [])
    (ht : ∀ p ∈ table, t < p.2.length) : ∃ h', (AttrOp.update attr table t).exec h = .ok h' := by
  have hv : ∀ name, ∃ v, attrValue attr table t name = .ok v := fun name => by
    unfold attrValue
    cases hl : table.lookup name with
    | none =>
      cases table with
      | nil => exact absurd rfl hne
      | cons p ps =>
        by_cases ha : attr = "forecast_flood_levels" <;> simp [ha]
    | some col =>
      have : (name, col) ∈ table := by
        rw [List.lookup_eq_some_iff] at hl
        obtain ⟨l1, l2, h1, -⟩ := hl
        simp [h1]
      have hlt := ht _ this
      by_cases ha : attr = "forecast_flood_levels"
      · simp [ha]
      · simp [ha, List.getElem?_eq_getElem hlt]
  have : ∀ (ps : List (String × Nat)) (g : AttrHeap), ∃ h', AttrHeap.updateFrom attr table t ps g = .ok h' := by
    intro ps
    induction ps with
    | nil => exact fun g => ⟨g, rfl⟩
    | cons p ps ih =>
      intro g
      obtain ⟨v, hv⟩ := hv p.1
      obtain ⟨h', h2⟩ := ih (g.write p.2 attr v)
      exact ⟨h', by simp only [AttrHeap.updateFrom, hv]; exact h2⟩
  exact this _ _

/-- The same two locations as in `C88_update_false`, with attributes of their own. -/
example : ∃ ops h h', OwnAttrs ops ∧ AttrHeap.empty.run ops = .ok h ∧
    (AttrOp.update "flood_level" [("A", [2]), ("B", [0])] 0).exec h = .ok h' ∧
    (h'.ofLocation 0).map (fun d => d "flood_level") = some (some (.num 2)) :=
  ⟨[.addLocation "A" (some fun _ => none), .addLocation "B" (some fun _ => none)], _, _, by simp [OwnAttrs], rfl, rfl, by decide⟩

end Flee
