import Verif.Spec.Demographics
import Verif.Lemmas.Running

/-!
Facts about demographic tables.
-/

namespace Flee

open Spec

theorem column_ok {t : Demographics} {col : String} {cells : List String} (h : t.column col = .ok cells) :
    ∃ j : Nat, t.columns[j]? = some col ∧ (∀ i : Nat, i < j → t.columns[i]? ≠ some col) ∧
      cells = t.rows.map fun r => (r[j]?).getD "" := by
  unfold Demographics.column at h
  split at h
  · cases h
  · next j hj =>
    cases h
    rw [List.idxOf?, List.findIdx?_eq_some_iff_getElem] at hj
    obtain ⟨h1, h2, h3⟩ := hj
    refine ⟨j, ?_, fun i hi he => ?_, by simp [List.getD]⟩
    · rw [List.getElem?_eq_getElem h1]
      simpa using h2
    · have := h3 i hi
      rw [List.getElem?_eq_getElem (hi.trans h1)] at he
      exact this (by simpa using he)

theorem column_first {t : Demographics} {col : String} {j : Nat} (h : t.columns[j]? = some col)
    (hf : ∀ i : Nat, i < j → t.columns[i]? ≠ some col) : t.column col = .ok (t.rows.map fun r => (r[j]?).getD "") := by
  obtain ⟨h1, h2⟩ := List.getElem?_eq_some_iff.1 h
  have : t.columns.idxOf? col = some j := by
    rw [List.idxOf?, List.findIdx?_eq_some_iff_getElem]
    refine ⟨h1, by simpa using h2, fun i hi he => hf i hi ?_⟩
    rw [List.getElem?_eq_getElem (hi.trans h1)]
    simpa using he
  simp only [Demographics.column, this, List.getD]

theorem first_index {l : List String} {x : String} (h : x ∈ l) :
    ∃ j : Nat, l[j]? = some x ∧ ∀ i : Nat, i < j → l[i]? ≠ some x := by
  classical
  have hex : ∃ j : Nat, l[j]? = some x := List.mem_iff_getElem?.1 h
  exact ⟨Nat.find hex, Nat.find_spec hex, fun i hi => Nat.find_min hex hi⟩

theorem weightOf_ok {n : Numerals} {s : String} {w : ℚ} :
    weightOf n s = .ok w ↔ (s = "" ∧ w = 0) ∨ (s ≠ "" ∧ n.float s = some w) := by
  unfold weightOf Numerals.parseFloat
  by_cases hs : s = ""
  · simp [hs, eq_comm]
  · simp only [hs, if_false, false_and, false_or, ne_eq, not_false_eq_true, true_and]
    cases n.float s <;> simp

theorem drawRow_iff {ws : List ℚ} {u : ℚ} {i : Nat} (hw : ∀ w ∈ ws, 0 ≤ w) (hs : 0 < ws.sum) (hu : 0 ≤ u) (hu1 : u < 1) :
    drawRow ws u = .ok i ↔ i < ws.length ∧ (ws.take i).sum ≤ u * ws.sum ∧ u * ws.sum < (ws.take (i + 1)).sum := by
  have h1 : ¬ ∃ w ∈ ws, w < 0 := fun ⟨w, hm, hn⟩ => absurd (hw w hm) (not_le.2 hn)
  have hp : ∀ x ∈ ws.map (· / ws.sum), 0 ≤ x := fun x hx => by
    obtain ⟨w, hwm, rfl⟩ := List.mem_map.1 hx
    exact div_nonneg (hw w hwm) hs.le
  have hsum : (ws.map (· / ws.sum)).sum = 1 := by rw [sum_div_map, div_self hs.ne']
  have := pickFrom_iff (u := u) (acc := 0) (k := i) hp hu (by rw [hsum]; simpa using hu1)
  simp only [drawRow, h1, if_false, hs.ne', Except.ok.injEq, this, zero_add, List.length_map, ← List.map_take, sum_div_map]
  rw [div_le_iff₀ hs, lt_div_iff₀ hs]

theorem drawRow_ok {ws : List ℚ} {u : ℚ} {i : Nat} (h : drawRow ws u = .ok i) : (∀ w ∈ ws, 0 ≤ w) ∧ 0 < ws.sum := by
  unfold drawRow at h
  split at h
  · cases h
  · next h1 =>
    push Not at h1
    split at h
    · cases h
    · next h2 => exact ⟨h1, lt_of_le_of_ne (List.sum_nonneg h1) (Ne.symm h2)⟩

theorem take_sum_succ {ws : List ℚ} {i : Nat} (h : i < ws.length) : (ws.take (i + 1)).sum = (ws.take i).sum + ws[i] := by
  rw [List.take_succ_eq_append_getElem h, List.sum_append]
  simp

theorem mapM_iff {ε α β : Type} {f : α → Except ε β} : ∀ {l : List α} {ys : List β},
    l.mapM f = .ok ys ↔ List.Forall₂ (fun x y => f x = .ok y) l ys
  | [], ys => by
    constructor
    · intro h
      cases h
      exact .nil
    · intro h
      cases h
      rfl
  | x :: l, ys => by
    rw [List.mapM_cons]
    simp only [Except.bind_eq_ok, Except.pure_eq_ok]
    constructor
    · rintro ⟨y, h1, ys', h2, rfl⟩
      exact .cons h1 (mapM_iff.1 h2)
    · intro h
      cases h with
      | cons h1 h2 => exact ⟨_, h1, _, mapM_iff.2 h2, rfl⟩

/-- What is drawn comes from a row with positive weight. -/
theorem drawSample_ok {n : Numerals} {demo : List (String × Demographics)} {loc key v : String} {u : ℚ} {t : Demographics}
    (ht : demo.lookup key = some t) (h : drawSample n demo loc key u = .ok v) (hu : 0 ≤ u) (hu1 : u < 1) :
    ∃ r w, r ∈ t.rows ∧ WeightIn n t (if loc ∈ t.columns then loc else "Default") r w ∧ 0 < w ∧ CellOf t r key v := by
  simp only [drawSample, ht, Except.bind_eq_ok, Except.pure_eq_ok] at h
  obtain ⟨cells, h1, ws, h2, i, h3, vals, h4, rfl⟩ := h
  obtain ⟨j, hj, hf, rfl⟩ := column_ok h1
  obtain ⟨j', hj', hf', rfl⟩ := column_ok h4
  obtain ⟨hw, hs⟩ := drawRow_ok h3
  obtain ⟨hi, hlo, hhi⟩ := (drawRow_iff hw hs hu hu1).1 h3
  have h2' := mapM_iff.1 h2
  have hl : t.rows.length = ws.length := by simpa using h2'.length_eq
  have hr : t.rows[i]? = some t.rows[i] := List.getElem?_eq_getElem (hl ▸ hi)
  have hwi : weightOf n ((t.rows[i][j]?).getD "") = .ok ws[i] := by
    have := List.forall₂_iff_get.1 h2'
    simpa using this.2 i (by simpa using hl ▸ hi) hi
  refine ⟨t.rows[i], ws[i], List.getElem_mem _, ⟨_, ⟨j, hj, hf, rfl⟩, weightOf_ok.1 hwi⟩, ?_, ⟨j', hj', hf', ?_⟩⟩
  · rw [take_sum_succ hi] at hhi
    linarith
  · simp [List.getD, hr]

/-- The row is the one in whose part of the total weight the random number falls. -/
theorem drawSample_row {n : Numerals} {demo : List (String × Demographics)} {loc key v : String} {u : ℚ} {t : Demographics}
    {ws : List ℚ} (ht : demo.lookup key = some t)
    (hws : List.Forall₂ (WeightIn n t (if loc ∈ t.columns then loc else "Default")) t.rows ws)
    (hw : ∀ w ∈ ws, 0 ≤ w) (hs : 0 < ws.sum) (hu : 0 ≤ u) (hu1 : u < 1) {i : Nat} {r : Row} (hr : t.rows[i]? = some r)
    (hlo : (ws.take i).sum ≤ u * ws.sum) (hhi : u * ws.sum < (ws.take (i + 1)).sum) (hv : CellOf t r key v) :
    drawSample n demo loc key u = .ok v := by
  have hl := hws.length_eq
  obtain ⟨hi, rfl⟩ := List.getElem?_eq_some_iff.1 hr
  have hrow := (drawRow_iff hw hs hu hu1).2 ⟨hl ▸ hi, hlo, hhi⟩
  obtain ⟨j', hj', hf', rfl⟩ := hv
  have hcol : ∃ j : Nat, t.columns[j]? = some (if loc ∈ t.columns then loc else "Default") ∧
      ∀ i : Nat, i < j → t.columns[i]? ≠ some (if loc ∈ t.columns then loc else "Default") := by
    have := (List.forall₂_iff_get.1 hws).2 i hi (hl ▸ hi)
    obtain ⟨_, ⟨j, hj, hf, -⟩, -⟩ := this
    exact ⟨j, hj, hf⟩
  obtain ⟨j, hj, hf⟩ := hcol
  have hcells : (t.rows.map fun r => (r[j]?).getD "").mapM (weightOf n) = .ok ws := by
    rw [mapM_iff, List.forall₂_map_left_iff]
    refine hws.imp fun r w ⟨s, ⟨k, hk, hkf, hsk⟩, h⟩ => ?_
    have : k = j := by
      rcases lt_trichotomy k j with h1 | h1 | h1
      · exact absurd hk (hf k h1)
      · exact h1
      · exact absurd hj (hkf j h1)
    subst this
    rw [← hsk]
    exact weightOf_ok.2 h
  simp only [drawSample, ht, Except.bind_eq_ok, Except.pure_eq_ok]
  exact ⟨_, column_first hj hf, ws, hcells, i, hrow, _, column_first hj' hf', by simp [List.getD, hr]⟩

theorem drawEach_ok {n : Numerals} {demo : List (String × Demographics)} {loc : String} :
    ∀ {keys : List String} {us : Nat → ℚ} {as : Attrs}, drawEach n demo loc keys us = .ok as →
    List.Forall₂ (fun k a => a.1 = k ∧ ∃ m, drawSample n demo loc k (us m) = .ok a.2) keys as
  | [], us, as, h => by
    cases h
    exact .nil
  | k :: keys, us, as, h => by
    simp only [drawEach, Except.bind_eq_ok, Except.pure_eq_ok] at h
    obtain ⟨v, h1, rest, h2, rfl⟩ := h
    refine .cons ⟨rfl, 0, h1⟩ ((drawEach_ok h2).imp fun k a ⟨g1, m, g2⟩ => ⟨g1, m + 1, g2⟩)

theorem lookup_of_nodup {α : Type} : ∀ {l : List (String × α)} {x : String × α}, (l.map (·.1)).Nodup → x ∈ l → l.lookup x.1 = some x.2
  | [], _, _, h => by simp at h
  | y :: l, x, hn, hx => by
    simp only [List.map_cons, List.nodup_cons] at hn
    rcases List.mem_cons.1 hx with rfl | hx
    · simp [List.lookup]
    · have : (x.1 == y.1) = false := by
        rw [beq_eq_false_iff_ne]
        intro he
        exact hn.1 (he ▸ List.mem_map_of_mem hx)
      simp only [List.lookup, this]
      exact lookup_of_nodup hn.2 hx

/-! ### Files -/

theorem fileAttribute_plain {a : String} (h : PlainName a) : fileAttribute ("demographics_" ++ a ++ ".csv") = .ok a := by
  obtain ⟨h1, h2⟩ := h
  have e1 : ("demographics_" ++ a ++ ".csv").toList = "demographics_".toList ++ (a.toList ++ '.' :: "csv".toList) := by
    simp only [String.toList_append, List.append_assoc]
    rfl
  have e2 : (a.toList ++ '.' :: "csv".toList).takeWhile (· ≠ '.') = a.toList := by
    rw [List.takeWhile_append_of_pos (fun ch hc => by simpa using fun he : ch = '.' => h2 (he ▸ hc))]
    simp
  have e3 : a.toList.takeWhile (· ≠ '_') = a.toList := by
    rw [← List.append_nil a.toList,
      List.takeWhile_append_of_pos (fun ch hc => by simpa using fun he : ch = '_' => h1 (he ▸ hc))]
    simp
  have e4 : (("demographics_" ++ a ++ ".csv").toList.takeWhile (· ≠ '.')).dropWhile (· ≠ '_') = '_' :: a.toList := by
    rw [e1, List.takeWhile_append_of_pos (by decide), e2]
    have : "demographics_".toList = "demographics".toList ++ ['_'] := by decide
    rw [this, List.append_assoc, List.dropWhile_append_of_pos (by decide)]
    simp
  simp only [fileAttribute, e4, e3]
  exact congrArg Except.ok String.ofList_toList

theorem fileAttribute_longer {x y : String} (h : PlainName x) :
    fileAttribute ("demographics_" ++ x ++ "_" ++ y ++ ".csv") = .ok x := by
  obtain ⟨h1, h2⟩ := h
  have e1 : ("demographics_" ++ x ++ "_" ++ y ++ ".csv").toList =
      "demographics_".toList ++ (x.toList ++ '_' :: (y.toList ++ ".csv".toList)) := by
    simp only [String.toList_append, List.append_assoc]
    rfl
  have e4 : (("demographics_" ++ x ++ "_" ++ y ++ ".csv").toList.takeWhile (· ≠ '.')).dropWhile (· ≠ '_') =
      '_' :: (x.toList ++ '_' :: (y.toList ++ ".csv".toList).takeWhile (· ≠ '.')) := by
    rw [e1, List.takeWhile_append_of_pos (by decide),
      List.takeWhile_append_of_pos (fun ch hc => by simpa using fun he : ch = '.' => h2 (he ▸ hc)),
      List.takeWhile_cons_of_pos (by decide)]
    have : "demographics_".toList = "demographics".toList ++ ['_'] := by decide
    rw [this, List.append_assoc, List.dropWhile_append_of_pos (by decide)]
    simp
  simp only [fileAttribute, e4]
  rw [List.takeWhile_append_of_pos (fun ch hc => by simpa using fun he : ch = '_' => h1 (he ▸ hc))]
  simp

theorem setTable_new {key : String} {t : Demographics} : ∀ {l : List (String × Demographics)}, key ∉ l.map (·.1) →
    setTable key t l = l ++ [(key, t)]
  | [], _ => rfl
  | x :: l, h => by
    simp only [List.map_cons, List.mem_cons, not_or] at h
    simp [setTable, Ne.symm h.1, setTable_new h.2]

theorem readDemographics_ok : ∀ {files : List (String × List Row)} {demo acc : List (String × Demographics)},
    List.Forall₂ (fun f x => f.1 = "demographics_" ++ x.1 ++ ".csv" ∧ PlainName x.1 ∧ TableLines f.2 x.2) files demo →
    ((acc ++ demo).map (·.1)).Nodup → files.foldlM readDemographic acc = .ok (acc ++ demo)
  | [], _, acc, h, _ => by
    cases h
    simp
    rfl
  | f :: files, _, acc, h, hn => by
    cases h with
    | @cons _ x _ demo hx hs =>
    obtain ⟨h1, h2, h3⟩ := hx
    have hnew : x.1 ∉ acc.map (·.1) := by
      simp only [List.map_append, List.map_cons] at hn
      have := List.nodup_append.1 hn
      exact fun hm => this.2.2 x.1 hm x.1 (by simp) rfl
    have h4 : readDemographic acc f = .ok (acc ++ [x]) := by
      simp only [readDemographic, h1, fileAttribute_plain h2, bind, Except.bind, readWeights, TableLines] at h3 ⊢
      rw [h3]
      exact congrArg Except.ok (setTable_new hnew)
    simp only [List.foldlM_cons, h4, bind, Except.bind]
    have := readDemographics_ok (acc := acc ++ [x]) hs (by simpa using hn)
    simpa using this

/-! ### Runs -/

/-- All agents have a home, and attributes that have been drawn for it. -/
def FromDraws (r : SpawnCfg) (m : Nat) (as : List Agent) : Prop := ∀ a ∈ as, a.home < m ∧ ∃ k, a.attrs = r.attrs k a.home

theorem FromDraws.nil {r : SpawnCfg} {m : Nat} : FromDraws r m [] := by simp [FromDraws]

theorem FromDraws.append {r : SpawnCfg} {m : Nat} {as bs : List Agent} (ha : FromDraws r m as) (hb : FromDraws r m bs) :
    FromDraws r m (as ++ bs) := fun a hm => (List.mem_append.1 hm).elim (ha a) (hb a)

theorem FromDraws.one {r : SpawnCfg} {m i : Nat} (k : Nat) (h : i < m) :
    FromDraws r m [{ place := .loc i, home := i, attrs := r.attrs k i }] := by
  intro a hm
  rw [List.mem_singleton] at hm
  subst hm
  exact ⟨h, k, rfl⟩

theorem spawnAt_draws {c : Cfg} {r : SpawnCfg} : ∀ {is : List Nat} {e e' : Eco}, spawnAt c r.attrs e is = .ok e' →
    e'.w.nLoc = e.w.nLoc ∧ (FromDraws r e.w.nLoc e.agents → FromDraws r e.w.nLoc e'.agents)
  | [], e, e', h => by
    cases h
    exact ⟨rfl, id⟩
  | i :: is, e, e', h => by
    simp only [spawnAt, Except.bind_eq_ok] at h
    obtain ⟨e1, h1, h2⟩ := h
    obtain ⟨hi, ha, hn, -⟩ := addAgent_agents h1
    obtain ⟨g1, g2⟩ := spawnAt_draws h2
    rw [hn] at g1 g2
    exact ⟨g1, fun hf => g2 (by rw [ha]; exact hf.append (.one _ hi))⟩

theorem spawnEach_draws {c : Cfg} {r : SpawnCfg} {count : Nat → Loc → Except Err Int} : ∀ {is : List Nat} {e e' : Eco} {m : Int},
    spawnEach c r.attrs count e is = .ok (m, e') →
    e'.w.nLoc = e.w.nLoc ∧ (FromDraws r e.w.nLoc e.agents → FromDraws r e.w.nLoc e'.agents)
  | [], e, e', m, h => by
    cases h
    exact ⟨rfl, id⟩
  | i :: is, e, e', m, h => by
    simp only [spawnEach, Except.bind_eq_ok, Except.pure_eq_ok] at h
    obtain ⟨x, -, e1, h1, ⟨m', e2⟩, h2, h3⟩ := h
    cases h3
    obtain ⟨a1, a2⟩ := spawnAt_draws h1
    obtain ⟨b1, b2⟩ := spawnEach_draws h2
    rw [a1] at b1 b2
    exact ⟨b1, fun hf => b2 (a2 hf)⟩

theorem spawnDaily_attrs {c : Cfg} {r : SpawnCfg} {t n : Int} {s s' : Sim} (h : spawnDaily c r t s = .ok (n, s'))
    (hf : FromDraws r s.e.w.nLoc s.e.agents) : FromDraws r s.e.w.nLoc s'.e.agents := by
  unfold spawnDaily at h
  split at h
  · simp only [Except.bind_eq_ok, Except.pure_eq_ok] at h
    obtain ⟨⟨m, e⟩, h1, h2⟩ := h
    cases h2
    exact (spawnEach_draws h1).2 hf
  · split at h
    · simp only [Except.bind_eq_ok, Except.pure_eq_ok] at h
      obtain ⟨⟨m, e⟩, h1, h2⟩ := h
      cases h2
      exact (spawnEach_draws h1).2 hf
    · simp only [Except.bind_eq_ok, Except.pure_eq_ok] at h
      obtain ⟨⟨x, d1⟩, h1, ⟨y, d2⟩, h2, locs, h3, e, h4, h5⟩ := h
      cases h5
      have g := (spawnAt_draws h4).2
      have hn : (if r.insertDayZero = true ∧ t = 0 then lowerCapacities (y, d2).2 s.e.w else s.e.w).nLoc = s.e.w.nLoc := by
        split
        · exact lowerCapacities_nLoc _ _
        · rfl
      simp only at g hn
      rw [hn] at g
      exact g hf

theorem addInitial_draws {r : SpawnCfg} {d : DataTable} {idps : Int} {e e' : Eco} {i : Nat}
    (h : addInitial r d idps e i = .ok e') :
    e'.w.nLoc = e.w.nLoc ∧ (FromDraws r e.w.nLoc e.agents → FromDraws r e.w.nLoc e'.agents) := by
  unfold addInitial at h
  split at h
  · cases h
    exact ⟨rfl, id⟩
  · simp only [Except.bind_eq_ok] at h
    obtain ⟨n, -, h⟩ := h
    revert h
    generalize List.range (n + idps).toNat = ks
    induction ks generalizing e with
    | nil =>
      intro h
      cases h
      exact ⟨rfl, id⟩
    | cons k ks ih =>
      intro h
      simp only [List.foldlM_cons, Except.bind_eq_ok] at h
      obtain ⟨e1, h1, h2⟩ := h
      obtain ⟨g1, g2⟩ := ih h2
      have h3 : i < e.w.nLoc ∧ e1.w.nLoc = e.w.nLoc ∧
          e1.agents = e.agents ++ [{ place := .loc i, home := i, attrs := r.attrs e.agents.length i }] := by
        unfold Eco.insertAgent at h1
        split at h1 <;> cases h1
        exact ⟨by assumption, rfl, rfl⟩
      obtain ⟨hi, hn, ha⟩ := h3
      rw [hn] at g1 g2
      exact ⟨g1, fun hf => g2 (by rw [ha]; exact hf.append (.one _ hi))⟩

theorem day_attrs {p : Script} {t : Nat} {s s' : Sim} {z : Eco} {k : Int} (hi : Inv s.e.w s.e.agents)
    (h : p.day t s = .ok (z, k, s')) (hf : FromDraws p.r s.e.w.nLoc s.e.agents) :
    FromDraws p.r s.e.w.nLoc s'.e.agents := by
  obtain ⟨s1, e2, e3, e4, h1, h2, h3, h4, h5, rfl⟩ := day_parts h
  have t1 := addNewConflictZones_through h1
  obtain ⟨zi, -⟩ := t1.develops (fun _ => Scheduled.timeless) hi
  have i1 := (spawnDaily_spawned h2).inv zi
  have hz : z.w.nLoc = s.e.w.nLoc := (day_done hi h).zLoc
  have ha := spawnDaily_attrs h2 (by rw [hz, t1.sameAgents]; exact hf)
  obtain ⟨r1, r2⟩ := refresh_eq h3
  have i2 : Inv e2.w e2.agents := by rw [r1, r2]; exact i1
  have i3 := exec_inv i2 h4
  have a3 : e3.agents = e2.agents := by
    simp only [Op.exec, Except.bind_eq_ok, Except.pure_eq_ok] at h4
    obtain ⟨w, _, rfl⟩ := h4
    rfl
  obtain ⟨w1, -, -, -, hd⟩ := evolve_days i3 h5
  have m1 := forall₂_map_eq (·.attrs) (·.attrs) hd fun a ha b ⟨_, _, k⟩ => (k.identity (i3.travel a ha)).2
  have m2 := forall₂_map_eq (·.home) (·.home) hd fun a ha b ⟨_, _, k⟩ => (k.identity (i3.travel a ha)).1
  rw [hz] at ha
  rw [← r2, ← a3] at ha
  intro a hm
  obtain ⟨j, hj⟩ := List.mem_iff_getElem?.1 hm
  have e1 : (e4.agents.map (·.attrs))[j]? = some a.attrs := by rw [List.getElem?_map, hj]; rfl
  have e2' : (e4.agents.map (·.home))[j]? = some a.home := by rw [List.getElem?_map, hj]; rfl
  rw [m1, List.getElem?_map] at e1
  rw [m2, List.getElem?_map] at e2'
  obtain ⟨b, hb, hb1⟩ := Option.map_eq_some_iff.1 e1
  obtain ⟨b', hb', hb2⟩ := Option.map_eq_some_iff.1 e2'
  rw [hb] at hb'
  cases hb'
  rw [← hb1, ← hb2]
  exact ha b (List.mem_of_getElem? hb)

theorem startCamps_attrs {p : Script} : ∀ {camps : List (String × Nat)} {e e' : Eco}, camps.foldlM (startCamp p) e = .ok e' →
    e'.w.nLoc = e.w.nLoc ∧ (FromDraws p.r e.w.nLoc e.agents → FromDraws p.r e.w.nLoc e'.agents)
  | [], e, e', h => by
    cases h
    exact ⟨rfl, id⟩
  | x :: camps, e, e', h => by
    simp only [List.foldlM_cons, Except.bind_eq_ok] at h
    obtain ⟨e1, g1, g2⟩ := h
    obtain ⟨b1, b2⟩ := startCamps_attrs g2
    unfold startCamp at g1
    split at g1
    · cases g1
      exact ⟨b1, b2⟩
    · simp only [Except.bind_eq_ok] at g1
      obtain ⟨k, -, g1⟩ := g1
      obtain ⟨a1, a2⟩ := addInitial_draws g1
      rw [a1] at b1 b2
      exact ⟨b1, fun hf => b2 (a2 hf)⟩

theorem setup_attrs {p : Script} {draws : Nat → ℚ} {e : Eco} {camps : List (String × Nat)} (hn : p.agentRows = none)
    (h : p.setup draws = .ok (e, camps)) : FromDraws p.r e.w.nLoc e.agents := by
  obtain ⟨e1, e2, h1, h2, -, h4⟩ := setup_parts h
  have a1 : e1.agents = [] := (storeGeo_through h1).keeps (I := fun x => x.agents = [])
    (fun _ _ _ hp hx h => (building_agents hp h).trans hx) rfl
  simp only [startAgents, hn] at h2
  cases h2
  obtain ⟨g1, g2⟩ := startCamps_attrs h4
  rw [g1]
  exact g2 (by rw [a1]; exact .nil)

theorem run_attrs {p : Script} {draws sd : Nat → ℚ} {s₀ : Sim} {camps : List (String × Nat)} {ds : List Day}
    (h : p.run draws sd = .ok (s₀, camps, ds)) (hn : p.agentRows = none) :
    FromDraws p.r s₀.e.w.nLoc s₀.e.agents ∧
    ∀ (j : Nat) (d : Day), ds[j]? = some d → FromDraws p.r s₀.e.w.nLoc d.state.e.agents := by
  obtain ⟨e, hs, rfl, -⟩ := run_parts h
  have hi := run_inv h
  have h0 := setup_attrs hn hs
  exact ⟨h0, fun j d hd => (run_induct (I := fun _ s => Inv s.e.w s.e.agents ∧ s.e.w.nLoc = e.w.nLoc ∧
      FromDraws p.r e.w.nLoc s.e.agents) h ⟨hi.1, rfl, h0⟩
    (fun t s z k s' ⟨i, g, f⟩ hday => ⟨(day_done i hday).inv, (day_done i hday).nLoc.trans g,
      g ▸ day_attrs i hday (g.symm ▸ f)⟩) j d hd).2.2.2⟩

end Flee
