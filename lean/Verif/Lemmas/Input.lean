import Verif.Spec.Input
import Verif.Lemmas.Kinds
import Verif.Lemmas.Nature

/-!
Facts about reading and storing the input.
-/

namespace Flee

open Spec

theorem isComment_cons {s : String} {rest : Row} (h : s ≠ "") :
    isComment (s :: rest) = .ok (decide (Commented (s :: rest))) := by
  simp only [isComment, Commented]
  split
  · rename_i hs
    exact absurd (String.toList_eq_nil_iff.1 hs) h
  · rename_i ch cs hs
    simp [hs, List.cons_prefix_cons, eq_comm]

theorem isComment_ok {r : Row} (h : ∀ s rest, r = s :: rest → s ≠ "") :
    isComment r = .ok (decide (r = [] ∨ Commented r)) := by
  cases r with
  | nil => rfl
  | cons s rest => rw [isComment_cons (h s rest rfl)]; simp

theorem isComment_inv {r : Row} {b : Bool} (h : isComment r = .ok b) :
    (∀ s rest, r = s :: rest → s ≠ "") ∧ (b = true ↔ r = [] ∨ Commented r) := by
  have h1 : ∀ s rest, r = s :: rest → s ≠ "" := by
    rintro s rest rfl rfl
    simp [isComment] at h
  refine ⟨h1, ?_⟩
  rw [isComment_ok h1] at h
  rw [← Except.ok.inj h]
  simp

theorem Spec.FirstCells.tail {r : Row} {rs : List Row} (h : FirstCells (r :: rs)) : FirstCells rs :=
  fun x hx => h x (by simp [hx])

theorem dataRows_cons (r : Row) (rs : List Row) :
    dataRows (r :: rs) = if r = [] ∨ Commented r then dataRows rs else r :: dataRows rs := by
  unfold dataRows
  rw [List.filter_cons]
  by_cases h : r = [] <;> by_cases h' : Commented r <;> simp [h, h']

theorem readTable_rows {k : Nat} {al : Bool} : ∀ {rows : List Row} {cols : List String} {shown : Option (List String)},
    FirstCells rows → ∃ cs, readTable k al cols shown rows = .ok (cs, dataRows rows)
  | [], cols, shown, _ => ⟨shown, rfl⟩
  | r :: rs, cols, shown, h => by
    have hc := isComment_ok (h r (by simp))
    unfold readTable
    rw [hc]
    by_cases hr : r = [] ∨ Commented r
    · obtain ⟨cs, g⟩ := readTable_rows (k := k) (al := al) (cols := cols ++ r.drop k)
        (shown := if al || decide (k < r.length) then some (cols ++ r.drop k) else shown) h.tail
      refine ⟨cs, ?_⟩
      rw [dataRows_cons, if_pos hr, ← g]
      simp [hr, bind, Except.bind]
    · obtain ⟨cs, g⟩ := readTable_rows (k := k) (al := al) (cols := cols) (shown := shown) h.tail
      refine ⟨cs, ?_⟩
      rw [dataRows_cons, if_neg hr]
      simp [hr, bind, Except.bind, g, pure, Except.pure]

theorem headerRows_cons (r : Row) (rs : List Row) :
    headerRows (r :: rs) = if r = [] ∨ Commented r then r :: headerRows rs else headerRows rs := by
  unfold headerRows
  rw [List.filter_cons]
  simp

theorem readTable_cols {k : Nat} {al : Bool} : ∀ {rows : List Row} {cols : List String} {shown cs : Option (List String)} {st : List Row},
    readTable k al cols shown rows = .ok (cs, st) → FirstCells rows →
    cs = if ∃ r ∈ headerRows rows, al = true ∨ k < r.length then some (cols ++ (headerRows rows).flatMap (·.drop k)) else shown
  | [], cols, shown, cs, st, h, _ => by
    cases Except.ok.inj h
    simp [headerRows]
  | r :: rs, cols, shown, cs, st, h, hf => by
    have hc := isComment_ok (hf r (by simp))
    unfold readTable at h
    rw [hc] at h
    rw [headerRows_cons]
    by_cases hr : r = [] ∨ Commented r
    · simp only [hr, decide_true, bind, Except.bind, if_true] at h
      have ih := readTable_cols h hf.tail
      rw [ih, if_pos hr]
      by_cases hx : al = true ∨ k < r.length
      · have hy : (al || decide (k < r.length)) = true := by simpa using hx
        rw [if_pos hy, if_pos (c := ∃ q ∈ r :: headerRows rs, al = true ∨ k < q.length) ⟨r, by simp, hx⟩]
        split
        · simp
        · rename_i hno
          have : (headerRows rs).flatMap (·.drop k) = [] := by
            rw [List.flatMap_eq_nil_iff]
            intro q hq
            rw [List.drop_eq_nil_iff]
            by_contra hlt
            exact hno ⟨q, hq, .inr (not_le.1 hlt)⟩
          simp [this]
      · have hy : ¬ (al || decide (k < r.length)) = true := by simpa using hx
        have hd : r.drop k = [] := List.drop_eq_nil_iff.2 (not_lt.1 fun h => hx (.inr h))
        rw [if_neg hy, hd]
        simp [hx, hd]
    · simp only [hr, decide_false, Except.bind_eq_ok, bind, Bool.false_eq_true, if_false] at h
      obtain ⟨x, hx⟩ : ∃ x, readTable k al cols shown rs = .ok x := by
        cases hx : readTable k al cols shown rs with
        | ok x => exact ⟨x, rfl⟩
        | error m => simp [Except.bind, hx] at h
      simp only [Except.bind, hx, pure, Except.pure, Except.ok.injEq, Prod.mk.injEq] at h
      obtain ⟨rfl, -⟩ := h
      rw [if_neg hr]
      exact readTable_cols (cs := x.1) (st := x.2) hx hf.tail

theorem readTable_firstCells {k : Nat} {al : Bool} : ∀ {rows : List Row} {cols : List String}
    {shown : Option (List String)} {x : Option (List String) × List Row},
    readTable k al cols shown rows = .ok x → FirstCells rows
  | [], _, _, _, _ => by simp [FirstCells]
  | r :: rs, cols, shown, x, h => by
    unfold readTable at h
    simp only [Except.bind_eq_ok] at h
    obtain ⟨b, hb, h⟩ := h
    have h1 := (isComment_inv hb).1
    have : FirstCells rs := by
      cases b
      · simp only [Bool.false_eq_true, if_false, Except.bind_eq_ok] at h
        obtain ⟨y, hy, -⟩ := h
        exact readTable_firstCells hy
      · simp only [if_true] at h
        exact readTable_firstCells h
    intro y hy
    rcases List.mem_cons.1 hy with rfl | hy
    · exact h1
    · exact this y hy

theorem readPlain_rows : ∀ {rows : List Row}, FirstCells rows → readPlain rows = .ok (dataRows rows)
  | [], _ => rfl
  | r :: rs, h => by
    unfold readPlain
    rw [isComment_ok (h r (by simp)), readPlain_rows h.tail, dataRows_cons]
    by_cases hr : r = [] ∨ Commented r <;> simp [hr, bind, Except.bind, pure, Except.pure]

theorem readPlain_firstCells : ∀ {rows st : List Row}, readPlain rows = .ok st → FirstCells rows
  | [], _, _ => by simp [FirstCells]
  | r :: rs, st, h => by
    simp only [readPlain, Except.bind_eq_ok] at h
    obtain ⟨b, hb, y, hy, -⟩ := h
    intro z hz
    rcases List.mem_cons.1 hz with rfl | hz
    · exact (isComment_inv hb).1
    · exact readPlain_firstCells hy z hz

theorem readMajor_rows : ∀ {rows : List Row}, FirstCells rows → readMajor rows = .ok rows
  | [], _ => rfl
  | r :: rs, h => by
    simp only [readMajor, Except.bind_eq_ok]
    exact ⟨_, isComment_ok (h r (by simp)), rs, readMajor_rows h.tail, rfl⟩

/-! Agents -/

theorem cell_ok {r : Row} {i : Nat} {s : String} (h : r[i]? = some s) : cell r i = .ok s := by
  simp [cell, h]

theorem cell_inv {r : Row} {i : Nat} {s : String} (h : cell r i = .ok s) : r[i]? = some s := by
  unfold cell at h
  split at h
  · rename_i hs; rw [hs, Except.ok.inj h]
  · simp at h

theorem nameCells_zip {cols : List String} (hd : cols.Nodup) : ∀ {cells : List String} {k : Nat},
    k + cells.length ≤ cols.length → ∀ {d : Attrs}, (∀ h ∈ cols.drop k, h ∉ d.map (·.1)) →
    nameCells cols k cells d = .ok (d ++ (cols.drop k).zip cells)
  | [], k, _, d, _ => by simp [nameCells]
  | s :: rest, k, hk, d, hdis => by
    simp only [List.length_cons] at hk
    have hk' : k < cols.length := by omega
    have hdrop : cols.drop k = cols[k] :: cols.drop (k + 1) := by rw [List.drop_eq_getElem_cons hk']
    have hnot : cols[k] ∉ d.map (·.1) := hdis _ (hdrop ▸ List.mem_cons_self)
    simp only [nameCells, Except.bind_eq_ok]
    refine ⟨cols[k], cell_ok (by simp [hk']), ?_⟩
    have hset : dictSet d cols[k] s = d ++ [(cols[k], s)] := by simp only [dictSet, if_neg hnot]
    rw [hset, nameCells_zip hd (by omega)]
    · rw [hdrop, List.zip_cons_cons, List.append_assoc]; rfl
    · intro h hh
      have hnd : (cols.drop k).Nodup := hd.sublist (List.drop_sublist _ _)
      rw [hdrop, List.nodup_cons] at hnd
      have h1 := hdis h (hdrop ▸ List.mem_cons_of_mem _ hh)
      simp only [List.map_append, List.map_cons, List.map_nil, List.mem_append, List.mem_singleton, not_or]
      exact ⟨h1, fun he => hnd.1 (he ▸ hh)⟩

theorem agentAttrs_zip {hs : List String} {name : String} {cells : List String} (hd : hs.Nodup)
    (hl : cells.length ≤ hs.length) : agentAttrs (some hs) (name :: cells) = .ok (hs.zip cells) := by
  unfold agentAttrs
  split
  · have := nameCells_zip hd (cells := cells) (k := 0) (by omega) (d := []) (by simp)
    simpa using this
  · rename_i h
    have : cells = [] := by
      cases cells with
      | nil => rfl
      | cons => simp at h
    simp [this]

theorem idxs_of_name {w : World} {n : String} {i : Nat} (hd : DistinctNames w) (hi : i < w.nLoc)
    (hn : (w.loc i).name.val = n) : w.idxs n = [i] := by
  have hm : ∀ j, j ∈ w.idxs n ↔ j = i := fun j => by
    rw [mem_idxs]
    constructor
    · rintro ⟨h1, h2⟩
      exact hd j h1 i hi (by rw [h2, hn])
    · rintro rfl
      exact ⟨hi, hn⟩
  have hnd : (w.idxs n).Nodup := idxs_nodup
  have hp : (w.idxs n).Perm [i] := (List.perm_ext_iff_of_nodup hnd (by simp)).2 (by simpa using hm)
  exact List.perm_singleton.1 hp

/-- Names and number of locations are the same. -/
def SameNames (w w' : World) : Prop := w'.nLoc = w.nLoc ∧ ∀ i, (w'.loc i).name = (w.loc i).name

theorem SameNames.refl (w : World) : SameNames w w := ⟨rfl, fun _ => rfl⟩

theorem SameNames.trans {w₁ w₂ w₃ : World} (h : SameNames w₁ w₂) (g : SameNames w₂ w₃) : SameNames w₁ w₃ :=
  ⟨g.1.trans h.1, fun i => (g.2 i).trans (h.2 i)⟩

theorem SameNames.distinct {w w' : World} (h : SameNames w w') (hd : DistinctNames w) : DistinctNames w' := by
  intro i hi j hj hn
  rw [h.1] at hi hj
  rw [h.2, h.2] at hn
  exact hd i hi j hj hn

theorem addAgent_at (c : Cfg) {e : Eco} {i : Nat} (hi : i < e.w.nLoc) (at' : Attrs) :
    ∃ e', e.addAgent c i at' = .ok e' ∧ SameNames e.w e'.w ∧
      e'.agents = e.agents ++ [{ place := .loc i, home := i, attrs := at' }] := by
  unfold Eco.addAgent
  rw [if_pos hi]
  dsimp only
  unfold Eco.insertAgent
  dsimp only
  have hl : i < (if c.takeFromPopulation = true then
      e.w.setLoc i { e.w.loc i with pop := if (e.w.loc i).pop > 0 then (e.w.loc i).pop - 1 else (e.w.loc i).pop,
                                    numAgentsSpawned := (e.w.loc i).numAgentsSpawned + 1 } else e.w).nLoc := by
    split <;> exact hi
  rw [if_pos hl]
  refine ⟨_, rfl, ⟨?_, fun j => ?_⟩, rfl⟩
  · dsimp only [World.incr, World.setLoc]
    split <;> rfl
  · dsimp only [World.incr, World.setLoc]
    simp only [upd_apply]
    split <;> split <;> simp_all [World.setLoc, upd_apply]

theorem readAgents_body (c : Cfg) {hs : List String} (hd : hs.Nodup) : ∀ {rows : List Row} {e : Eco} {i : Nat},
    0 < i → FirstCells rows → DistinctNames e.w → (∀ r ∈ dataRows rows, r.length ≤ hs.length + 1) →
    (∀ r ∈ dataRows rows, ∃ j < e.w.nLoc, r[0]? = some (e.w.loc j).name.val) →
    ∃ e' as, readAgents c i (some hs) e rows = .ok e' ∧ SameNames e.w e'.w ∧ e'.agents = e.agents ++ as ∧
      List.Forall₂ (AgentFor e.w hs) (dataRows rows) as
  | [], e, i, _, _, _, _, _ => ⟨e, [], rfl, .refl _, by simp, by simp [dataRows]⟩
  | r :: rs, e, i, hi, hf, hn, hlen, hloc => by
    have hc := isComment_ok (hf r (by simp))
    unfold readAgents
    rw [hc]
    by_cases hr : r = [] ∨ Commented r
    · rw [dataRows_cons, if_pos hr] at hlen hloc ⊢
      obtain ⟨e', as, h1, h2⟩ := readAgents_body c hd (i := i + 1) (by omega) hf.tail hn hlen hloc
      refine ⟨e', as, ?_, h2⟩
      rw [← h1]
      simp [hr, bind, Except.bind]
    · rw [dataRows_cons, if_neg hr] at hlen hloc ⊢
      obtain ⟨j, hj, hname⟩ := hloc r (by simp)
      cases r with
      | nil => simp at hr
      | cons name cells =>
        have hl := hlen _ List.mem_cons_self
        simp only [List.length_cons] at hl
        have hname' : name = (e.w.loc j).name.val := by simpa using hname
        obtain ⟨e1, g1, g2, g3⟩ := addAgent_at c hj (hs.zip cells)
        have hn1 := g2.distinct hn
        obtain ⟨e', as, h1, h2, h3, h4⟩ := readAgents_body c hd (rows := rs) (e := e1)
          (i := nextLine i (name :: cells).length e1.w.nLoc)
          (by unfold nextLine; split <;> [assumption; (split <;> omega)]) hf.tail hn1
          (fun r hr => hlen r (by simp [hr])) (fun r hr => by
            obtain ⟨k, hk, g⟩ := hloc r (by simp [hr])
            exact ⟨k, by rw [g2.1]; exact hk, by rw [g2.2]; exact g⟩)
        refine ⟨e', _ :: as, ?_, g2.trans h2, by rw [h3, g3]; simp, .cons ⟨name, cells, j, rfl, hj, hname'.symm, rfl⟩ ?_⟩
        · rw [← h1]
          have ha := agentAttrs_zip (name := name) hd (cells := cells) (by omega)
          have hx : e.w.idxs name = [j] := idxs_of_name hn hj hname'.symm
          simp only [hr, decide_false, bind, Except.bind, Bool.false_eq_true, if_false]
          rw [if_neg (by omega), ha]
          dsimp only
          simp [cell, hx, addAtEach, bind, Except.bind, g1]
        · refine h4.imp fun r a => ?_
          rintro ⟨nm, cs, k, q1, q2, q3, q4⟩
          exact ⟨nm, cs, k, q1, by rw [← g2.1]; exact q2, by rw [← g2.2]; exact q3, q4⟩

end Flee
