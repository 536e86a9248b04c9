import Verif.Lemmas.Sample
import Verif.Lemmas.Validation
import Verif.Model.WebFigures
import Verif.Props.Validation

/-!
Properties of the figures for browsers: C236.
-/

namespace Flee

open Spec

/-- The rescaled number of a camp. -/
private def scaled (r : Printed) (e : CampEntry) : ℚ := if 0 < r.inCamps then (e.sim : ℚ) * r.dataInCamps / r.inCamps else 0

/-- The rescaled error of a day with rounded differences. -/
private def roundedDayError (r : Printed) : ℚ := (r.camps.map fun e => round4 |scaled r e - e.data|).sum / max r.dataInCamps 1

private theorem webQuantification_out {names : List String} {idps : Bool} {rows : List Printed} (hn : names.Nodup)
    (hc : Complete names rows) {j : Nat} {n : String} (h : names[j]? = some n) :
    webErrorQuantification (outTable names idps rows) n =
      .ok ⟨rows.map fun r => |((entryOf r j).sim : ℚ) - (entryOf r j).data|,
        rows.map fun r => round4 |scaled r (entryOf r j) - (entryOf r j).data|⟩ := by
  obtain ⟨h1, h2⟩ := columns_out (idps := idps) hn hc h
  obtain ⟨h3, h4⟩ := totals_out (idps := idps) hc
  unfold webErrorQuantification
  simp only [Except.bind_eq_ok, Except.pure_eq_ok]
  refine ⟨_, h1, _, h2, _, h3, _, h4, _, absDiffs_int rows _ _, _, ?_, rfl⟩
  rw [zipWith3_map_self]
  unfold absDiffs diffs
  rw [if_pos (by simp), zipWith_map_self]
  simp only [Except.map, List.map_map]
  refine congrArg _ (List.map_congr_left fun r _ => ?_)
  simp only [Function.comp_apply, rescaledFloat, scaled, gt_iff_lt, Int.cast_pos]

private theorem webErrors_out {names : List String} {idps : Bool} {rows : List Printed} (hn : names.Nodup) (h0 : names ≠ [])
    (hr : ∀ n ∈ names, ReadableName n) (hc : Complete names rows) :
    webErrors (outTable names idps rows) = .ok (rows.map dayError, rows.map roundedDayError) := by
  have hpos : 0 < names.length := List.length_pos_iff.2 h0
  unfold webErrors
  rw [outTable_names, locationNames_out hr]
  simp only [Except.bind_eq_ok, Except.pure_eq_ok]
  refine ⟨_, (totals_out hc).2, _, mapM_names _ _ fun j n h => webQuantification_out hn hc h, _, addErrors_rows false rows _ _ _ hpos,
    _, addErrors_rows true rows _ _ _ hpos, ?_⟩
  rw [perRefugee_rows, perRefugee_rows]
  refine Prod.ext (List.map_congr_left fun r hr => ?_) (List.map_congr_left fun r hr => ?_)
  · unfold dayError
    rw [← sum_entries r (fun e => |(e.sim : ℚ) - e.data|) (hc r hr)]
    simp
  · unfold roundedDayError
    rw [← sum_entries r (fun e => round4 |scaled r e - e.data|) (hc r hr)]
    simp

private theorem rounded_close (r : Printed) :
    |roundedDayError r - rescaledDayError r| ≤ r.camps.length / 20000 / max (r.dataInCamps : ℚ) 1 := by
  have key : ∀ es : List CampEntry, |(es.map fun e => round4 |scaled r e - e.data|).sum - (es.map fun e => |scaled r e - e.data|).sum| ≤
      es.length / 20000 := by
    intro es
    induction es with
    | nil => simp
    | cons e es ih =>
      have he := round4_near |scaled r e - e.data|
      rw [abs_le] at he ih ⊢
      simp only [List.map_cons, List.sum_cons, List.length_cons, Nat.cast_add, Nat.cast_one]
      constructor <;> linarith [he.1, he.2, ih.1, ih.2]
  unfold roundedDayError rescaledDayError
  have hm : (0 : ℚ) < max (r.dataInCamps : ℚ) 1 := lt_max_of_lt_right one_pos
  rw [Int.cast_max, Int.cast_one, ← sub_div, abs_div, abs_of_pos hm]
  gcongr
  exact key r.camps

/-- C236: the figures for browsers show for each day the differences of all camps per refugee, and those that are left when all numbers of
the simulation have been multiplied so that the totals agree. -/
def C236_claim : Prop :=
  ∀ {names : List String} {idps : Bool} {rows : List Printed}, names.Nodup → names ≠ [] → (∀ n ∈ names, ReadableName n) →
    Complete names rows → webErrors (outTable names idps rows) = .ok (rows.map dayError, rows.map rescaledDayError)

/-- A day of two camps in which the simulation has three people. -/
private def thirds : Printed :=
  { day := 0, camps := [⟨1, 5, 4⟩, ⟨2, 5, 3⟩], totalError := 0, dataInCamps := 10, total := 3, raw := 10, inCamps := 3, debt := 0,
    idps := none }

private theorem readable_word {n : String} (h : n.toList ≠ [] ∧ ∀ ch ∈ n.toList, ch ∉ [' ', '\t', '\n', '\r'])
    (h1 : ¬ " sim".toList <:+: n.toList) (h2 : ¬ "numAgents".toList <:+: n.toList) : ReadableName n :=
  ⟨⟨[n.toList], by simp, fun w hw => by
    rw [List.mem_singleton.1 hw]
    exact ⟨h.1, fun ch hc hb => h.2 ch hc (by simpa [Blank] using hb)⟩, by simp [List.intercalate]⟩, h1, h2⟩

private theorem two_readable : ∀ n ∈ ["Mbera", "Wau"], ReadableName n := by
  intro n hn
  simp only [List.mem_cons, List.not_mem_nil, or_false] at hn
  rcases hn with rfl | rfl
  · exact readable_word (by decide) (by decide) (by decide)
  · exact readable_word (by decide) (by decide) (by decide)

/-- Differences are rounded to four digits. -/
theorem C236_false : ¬ C236_claim := by
  intro h
  have h1 := h (names := ["Mbera", "Wau"]) (idps := false) (rows := [thirds]) (by decide) (by decide) two_readable
    (by unfold Complete; decide)
  have h2 : webErrors (outTable ["Mbera", "Wau"] false [thirds]) = .ok ([7 / 10], [33334 / 100000]) := by decide +kernel
  have h3 : [thirds].map rescaledDayError = [1 / 3] := by decide +kernel
  rw [h2, h3] at h1
  exact absurd (Prod.mk.inj (Except.ok.inj h1)).2 (by decide +kernel)

/-- The plain curve is that, and the rescaled one is off by at most one in 20,000 for each camp, per refugee; unlike in the figures of the
other program (C167) no whole persons are lost. Missing from the full claim: the exact rescaled numbers. -/
theorem C236_partial {names : List String} {idps : Bool} {rows : List Printed} (hn : names.Nodup) (h0 : names ≠ [])
    (hr : ∀ n ∈ names, ReadableName n) (hc : Complete names rows) :
    ∃ bs, webErrors (outTable names idps rows) = .ok (rows.map dayError, bs) ∧
      List.Forall₂ (fun r b => |b - rescaledDayError r| ≤ names.length / 20000 / max (r.dataInCamps : ℚ) 1) rows bs := by
  refine ⟨_, webErrors_out hn h0 hr hc, ?_⟩
  rw [List.forall₂_map_right_iff, List.forall₂_same]
  intro r hm
  rw [← hc r hm]
  exact rounded_close r

example : ["Mbera", "Wau"].Nodup ∧ ["Mbera", "Wau"] ≠ [] ∧ (∀ n ∈ ["Mbera", "Wau"], ReadableName n) ∧
    Complete ["Mbera", "Wau"] [thirds] :=
  ⟨by decide, by decide, two_readable, by unfold Complete; decide⟩

/-- If the camps of the simulation have the same shares as in the data, the rescaled curve is zero. -/
theorem C236_shares {names : List String} {idps : Bool} {rows : List Printed} (hn : names.Nodup) (h0 : names ≠ [])
    (hr : ∀ n ∈ names, ReadableName n) (hc : Complete names rows) (hs : ∀ r ∈ rows, SameShares r) :
    ∃ as, webErrors (outTable names idps rows) = .ok (as, rows.map fun _ => 0) := by
  refine ⟨rows.map dayError, (webErrors_out hn h0 hr hc).trans ?_⟩
  congr 2
  refine List.map_congr_left fun r hm => ?_
  obtain ⟨h1, h2⟩ := hs r hm
  have hz : ∀ e ∈ r.camps, round4 |scaled r e - e.data| = 0 := by
    intro e he
    have hp : (0 : ℚ) < r.inCamps := by exact_mod_cast h1
    have : (e.sim : ℚ) * r.dataInCamps = e.data * r.inCamps := by exact_mod_cast h2 e he
    have e0 : scaled r e = e.data := by
      unfold scaled
      rw [if_pos h1, this]
      field_simp
    rw [e0, sub_self, abs_zero]
    decide +kernel
  unfold roundedDayError
  rw [List.map_congr_left hz]
  simp

example : ∀ r ∈ [{ thirds with camps := [⟨1, 4, 3⟩, ⟨2, 8, 6⟩], dataInCamps := 12 }], SameShares r := by
  unfold SameShares
  decide

/-- With names of single words the whole program draws a figure for each camp, with its numbers, and these curves. -/
theorem C236_figures {names : List String} {rows : List Printed} (hn : names.Nodup) (h0 : names ≠ [])
    (hw : ∀ n ∈ names, OneWord n ∧ n ≠ "Date" ∧ n ≠ "Total") (hr : ∀ n ∈ names, ReadableName n) (hc : Complete names rows) :
    ∃ figs bs, webFigures (outTable names false rows) = .ok (figs, rows.map dayError, bs) ∧
      List.Forall₂ (fun r b => |b - rescaledDayError r| ≤ names.length / 20000 / max (r.dataInCamps : ℚ) 1) rows bs ∧
      (∀ j n, names[j]? = some n → ∃ ys zs, SimCurve rows j ys ∧ DataCurve rows j zs ∧ (n, ys, zs) ∈ figs) ∧
      ∀ f ∈ figs, ∃ j : Nat, names[j]? = some f.1 ∧ SimCurve rows j f.2.1 ∧ DataCurve rows j f.2.2 := by
  obtain ⟨figs, h1, h2, h3⟩ := C170_partial hn hw hc
  obtain ⟨bs, h4, h5⟩ := C236_partial (idps := false) hn h0 hr hc
  refine ⟨figs, bs, ?_, h5, h2, h3⟩
  simp only [webFigures, Except.bind_eq_ok, Except.pure_eq_ok]
  exact ⟨_, h1, _, h4, rfl⟩

example : (∀ n ∈ ["Mbera", "Wau"], OneWord n ∧ n ≠ "Date" ∧ n ≠ "Total") ∧ (∀ n ∈ ["Mbera", "Wau"], ReadableName n) ∧
    Complete ["Mbera", "Wau"] [thirds] :=
  ⟨fun n hn => ⟨by unfold OneWord Blank; revert n; decide, by revert n; decide⟩, two_readable, by unfold Complete; decide⟩

/-- The whole program draws nothing if a camp's name has a space after a first word that is no camp. -/
theorem C236_space {names : List String} {idps : Bool} {rows : List Printed} {w n : String} {u : List Char} (hn : n ∈ names)
    (hw : OneWord w) (hu : n.toList = w.toList ++ ' ' :: u) (hd : w ≠ "Date") (h : w ∉ names) :
    ∀ out, webFigures (outTable names idps rows) ≠ .ok out := by
  intro out ho
  simp only [webFigures, Except.bind_eq_ok] at ho
  obtain ⟨figs, hf, -⟩ := ho
  have hm : n ++ " sim" ∈ outColumns names idps :=
    List.mem_append_left _ (List.mem_append_left _ (List.mem_append_right _ (List.mem_flatMap.2 ⟨n, hn, by simp⟩)))
  have hl : (n ++ " sim").toList = w.toList ++ ' ' :: (u ++ " sim".toList) := by
    rw [String.toList_append, hu]
    simp
  rcases plotCamps_needs hf hm (dropped_sim (.inl rfl)) hw hl with h' | h'
  · exact hd h'
  · exact h h'

example : "Bobo Dioulasso" ∈ ["Wau", "Bobo Dioulasso"] ∧ OneWord "Bobo" ∧
    "Bobo Dioulasso".toList = "Bobo".toList ++ ' ' :: "Dioulasso".toList ∧ "Bobo" ≠ "Date" ∧ "Bobo" ∉ ["Wau", "Bobo Dioulasso"] :=
  ⟨by decide, ⟨by decide, by unfold Blank; decide⟩, by decide, by decide, by decide⟩

end Flee
