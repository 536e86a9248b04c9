import Mathlib.Algebra.Order.BigOperators.Group.List
import Mathlib.Algebra.Order.BigOperators.Group.Finset
import Mathlib.Algebra.BigOperators.Ring.List
import Mathlib.Algebra.BigOperators.Ring.Finset
import Mathlib.Algebra.BigOperators.Field
import Mathlib.Algebra.Order.Field.Basic
import Mathlib.Tactic.FieldSimp
import Mathlib.Tactic.Ring
import Mathlib.Tactic.Linarith
import Verif.Spec.UqOutput

/-!
Properties of the errors of several runs: C239.
-/

namespace Flee

open Spec

variable {n : ℕ}

private theorem sum_swap {α β : Type} (f : α → β → ℚ) : ∀ (l : List α) (m : List β),
    (l.map fun a => (m.map (f a)).sum).sum = (m.map fun b => (l.map fun a => f a b).sum).sum
  | [], m => by simp
  | a :: l, m => by
    simp only [List.map_cons, List.sum_cons, sum_swap f l m]
    exact (List.sum_map_add).symm

private theorem sum_fin {α : Type} (f : Fin n → α → ℚ) : ∀ l : List α,
    ∑ i, (l.map (f i)).sum = (l.map fun a => ∑ i, f i a).sum
  | [] => by simp
  | a :: l => by simp only [List.map_cons, List.sum_cons, Finset.sum_add_distrib, sum_fin f l]

private theorem sum_over {α : Type} (c : ℚ) (f : α → ℚ) : ∀ l : List α, (l.map f).sum / c = (l.map fun a => f a / c).sum
  | [] => by simp
  | a :: l => by simp only [List.map_cons, List.sum_cons, add_div, sum_over c f l]

private theorem filter_one : ∀ {run : List (UqRow n)} {r : UqRow n}, (run.map (·.day)).Nodup → r ∈ run →
    (run.filter fun x => x.day = r.day) = [r]
  | x :: run, r, hn, hr => by
    simp only [List.map_cons, List.nodup_cons, List.mem_map, not_exists, not_and] at hn
    rcases List.mem_cons.1 hr with rfl | hr
    · rw [List.filter_cons_of_pos (by simp)]
      congr 1
      refine List.filter_eq_nil_iff.2 fun y hy => ?_
      simpa using hn.1 y hy
    · rw [List.filter_cons_of_neg (by simpa using fun e => hn.1 r hr e.symm)]
      exact filter_one hn.2 hr

private theorem ordered_nodup {ds : List ℤ} (h : ds.Pairwise (· < ·)) : ds.Nodup := h.imp fun h => ne_of_lt h

private theorem days_once {ds : List ℤ} {D : ℤ → Fin n → ℚ} {U : ℤ → ℚ} {runs : List (List (UqRow n))} (h : SameCrisis ds D U runs)
    (hr : runs ≠ []) : uqDays runs.flatten = ds := by
  have hm : ∀ d, d ∈ uqDays runs.flatten ↔ d ∈ ds := by
    intro d
    simp only [uqDays, List.mem_insertionSort, List.mem_dedup, List.mem_map, List.mem_flatten]
    constructor
    · rintro ⟨r, ⟨run, hrun, hr⟩, rfl⟩
      exact h.days run hrun ▸ List.mem_map_of_mem hr
    · intro hd
      obtain ⟨run, hrun⟩ := List.exists_mem_of_ne_nil _ hr
      rw [← h.days run hrun] at hd
      obtain ⟨r, hr, rfl⟩ := List.mem_map.1 hd
      exact ⟨r, ⟨run, hrun, hr⟩, rfl⟩
  have hn : (uqDays runs.flatten).Nodup := (List.perm_insertionSort _ _).nodup_iff.2 (List.nodup_dedup _)
  have hp : (uqDays runs.flatten).Perm ds := (List.perm_ext_iff_of_nodup hn (ordered_nodup h.order)).2 hm
  exact hp.eq_of_pairwise (fun a b _ _ h1 h2 => le_antisymm h1 h2) (List.pairwise_insertionSort _ _) (h.order.imp le_of_lt)

/-- The sum of a column on a day. -/
private def onDay (f : UqRow n → ℚ) (d : ℤ) (run : List (UqRow n)) : ℚ := ((run.filter fun r => r.day = d).map f).sum

private theorem mean_runs {ds : List ℤ} {D : ℤ → Fin n → ℚ} {U : ℤ → ℚ} {runs : List (List (UqRow n))} (h : SameCrisis ds D U runs)
    {d : ℤ} (hd : d ∈ ds) (f : UqRow n → ℚ) : uqMean f runs.flatten d = (runs.map (onDay f d)).sum / runs.length := by
  have h1 : ∀ rs : List (List (UqRow n)), ((rs.flatten.filter fun r => r.day = d).map f).sum = (rs.map (onDay f d)).sum := by
    intro rs
    induction rs with
    | nil => rfl
    | cons a rs ih =>
      simp only [List.flatten_cons, List.filter_append, List.map_append, List.sum_append, List.map_cons, List.sum_cons, ih]
      rfl
  have h2 : ∀ rs : List (List (UqRow n)), (∀ run ∈ rs, run ∈ runs) → (rs.flatten.filter fun r => r.day = d).length = rs.length := by
    intro rs hs
    induction rs with
    | nil => rfl
    | cons a rs ih =>
      have ha := hs a (by simp)
      have hd' := hd
      rw [← h.days a ha] at hd'
      obtain ⟨r, hr, rfl⟩ := List.mem_map.1 hd'
      have := filter_one (h.days a ha ▸ ordered_nodup h.order) hr
      simp only [List.flatten_cons, List.filter_append, List.length_append, this, List.length_cons, List.length_nil]
      rw [ih fun run hrun => hs run (by simp [hrun])]
      omega
  rw [uqMean, h1, h2 runs fun _ h => h]

private theorem onDay_row {ds : List ℤ} {D : ℤ → Fin n → ℚ} {U : ℤ → ℚ} {runs : List (List (UqRow n))} (h : SameCrisis ds D U runs)
    {run : List (UqRow n)} (hrun : run ∈ runs) {r : UqRow n} (hr : r ∈ run) (f : UqRow n → ℚ) : onDay f r.day run = f r := by
  rw [onDay, filter_one (h.days run hrun ▸ ordered_nodup h.order) hr]
  simp

private theorem row_of {ds : List ℤ} {D : ℤ → Fin n → ℚ} {U : ℤ → ℚ} {runs : List (List (UqRow n))} (h : SameCrisis ds D U runs)
    {run : List (UqRow n)} (hrun : run ∈ runs) {d : ℤ} (hd : d ∈ ds) : ∃ r ∈ run, r.day = d := by
  rw [← h.days run hrun] at hd
  simpa using hd

private theorem mean_const {ds : List ℤ} {D : ℤ → Fin n → ℚ} {U : ℤ → ℚ} {runs : List (List (UqRow n))} (h : SameCrisis ds D U runs)
    (hr : runs ≠ []) {d : ℤ} (hd : d ∈ ds) (f : UqRow n → ℚ) (c : ℚ) (hf : ∀ run ∈ runs, ∀ r ∈ run, r.day = d → f r = c) :
    uqMean f runs.flatten d = c := by
  rw [mean_runs h hd]
  have : runs.map (onDay f d) = runs.map fun _ => c := by
    refine List.map_congr_left fun run hrun => ?_
    obtain ⟨r, hr, rfl⟩ := row_of h hrun hd
    rw [onDay_row h hrun hr, hf run hrun r hr rfl]
  rw [this]
  have hl : (runs.length : ℚ) ≠ 0 := by simpa using hr
  simp [hl]

private theorem runError_days {ds : List ℤ} {D : ℤ → Fin n → ℚ} {U : ℤ → ℚ} {runs : List (List (UqRow n))} (h : SameCrisis ds D U runs)
    {run : List (UqRow n)} (hrun : run ∈ runs) (f : Fin n → UqRow n → ℚ) :
    runError f run = (ds.map fun d => (∑ i, |onDay (f i) d run - D d i|) / max (U d) 1).sum / ds.length := by
  have h1 : (run.length : ℚ) = ds.length := by rw [← h.days run hrun, List.length_map]
  rw [runError, h1]
  congr 2
  conv_rhs => rw [← h.days run hrun, List.map_map]
  refine List.map_congr_left fun r hr => ?_
  simp only [Function.comp_apply, onDay_row h hrun hr, (h.data run hrun r hr).1, (h.data run hrun r hr).2]

private theorem meanError_days {ds : List ℤ} {D : ℤ → Fin n → ℚ} {U : ℤ → ℚ} {runs : List (List (UqRow n))} (h : SameCrisis ds D U runs)
    (f : Fin n → UqRow n → ℚ) : meanError f runs =
      (ds.map fun d => (∑ i, (runs.map fun run => |onDay (f i) d run - D d i|).sum / runs.length) / max (U d) 1).sum / ds.length := by
  have h1 : runs.map (runError f) =
      runs.map fun run => (ds.map fun d => (∑ i, |onDay (f i) d run - D d i|) / max (U d) 1).sum / ds.length :=
    List.map_congr_left fun run hrun => runError_days h hrun f
  rw [meanError, h1, ← sum_over (ds.length : ℚ), sum_swap, div_right_comm, sum_over (runs.length : ℚ)]
  congr 3
  funext d
  rw [← Finset.sum_div, sum_fin, ← sum_over (max (U d) 1)]
  exact div_right_comm _ _ _

private theorem uqError_days {ds : List ℤ} {D : ℤ → Fin n → ℚ} {U : ℤ → ℚ} {runs : List (List (UqRow n))} (h : SameCrisis ds D U runs)
    (hr : runs ≠ []) (f : Fin n → UqRow n → ℚ) : uqError f runs.flatten =
      (ds.map fun d => (∑ i, |(runs.map (fun run => onDay (f i) d run - D d i)).sum| / runs.length) / max (U d) 1).sum / ds.length := by
  rw [uqError, days_once h hr]
  congr 2
  refine List.map_congr_left fun d hd => ?_
  have hl : (0 : ℚ) < runs.length := by
    have := List.length_pos_of_ne_nil hr
    exact_mod_cast this
  rw [uqDayError, mean_const h hr hd (·.unhcr) (U d) fun run hrun r hr e => e ▸ (h.data run hrun r hr).2]
  congr 1
  refine Finset.sum_congr rfl fun i _ => ?_
  rw [mean_const h hr hd (fun r => r.data i) (D d i) fun run hrun r hr e => e ▸ congrFun (h.data run hrun r hr).1 i, mean_runs h hd]
  have h2 : (runs.map fun run => onDay (f i) d run - D d i).sum = (runs.map (onDay (f i) d)).sum - runs.length * D d i := by
    clear hl h hr
    induction runs with
    | nil => simp
    | cons a l ih => simp only [List.map_cons, List.sum_cons, ih, List.length_cons, Nat.cast_add, Nat.cast_one]; ring
  rw [h2, ← abs_of_pos hl, ← abs_div, abs_of_pos hl]
  congr 1
  field_simp

private theorem abs_sum {α : Type} (f : α → ℚ) : ∀ l : List α, |(l.map f).sum| ≤ (l.map fun a => |f a|).sum
  | [] => by simp
  | a :: l => by
    simp only [List.map_cons, List.sum_cons]
    exact (abs_add_le _ _).trans (by linarith [abs_sum f l])

private theorem sum_le {α : Type} (f g : α → ℚ) : ∀ l : List α, (∀ a ∈ l, f a ≤ g a) → (l.map f).sum ≤ (l.map g).sum
  | [], _ => by simp
  | a :: l, h => by
    simp only [List.map_cons, List.sum_cons]
    linarith [h a (by simp), sum_le f g l fun b hb => h b (by simp [hb])]

private theorem error_le {ds : List ℤ} {D : ℤ → Fin n → ℚ} {U : ℤ → ℚ} {runs : List (List (UqRow n))} (h : SameCrisis ds D U runs)
    (hr : runs ≠ []) (f : Fin n → UqRow n → ℚ) : uqError f runs.flatten ≤ meanError f runs := by
  rw [uqError_days h hr, meanError_days h]
  refine div_le_div_of_nonneg_right (sum_le _ _ _ fun d _ => ?_) (by positivity)
  refine div_le_div_of_nonneg_right (Finset.sum_le_sum fun i _ => ?_) (by positivity)
  exact div_le_div_of_nonneg_right (abs_sum _ _) (by positivity)

private theorem error_eq {ds : List ℤ} {D : ℤ → Fin n → ℚ} {U : ℤ → ℚ} {runs : List (List (UqRow n))} (h : SameCrisis ds D U runs)
    (hr : runs ≠ []) (f : Fin n → UqRow n → ℚ) (ho : OneSided f runs) : uqError f runs.flatten = meanError f runs := by
  rw [uqError_days h hr, meanError_days h]
  congr 2
  refine List.map_congr_left fun d hd => ?_
  congr 1
  refine Finset.sum_congr rfl fun i _ => ?_
  congr 1
  rcases ho d i with ho | ho
  · have : ∀ run ∈ runs, 0 ≤ onDay (f i) d run - D d i := by
      intro run hrun
      obtain ⟨r, hr, rfl⟩ := row_of h hrun hd
      rw [onDay_row h hrun hr, ← (h.data run hrun r hr).1]
      linarith [ho run hrun r hr rfl]
    rw [abs_of_nonneg (List.sum_nonneg (by simpa using this))]
    exact congrArg _ (List.map_congr_left fun run hrun => (abs_of_nonneg (this run hrun)).symm)
  · have : ∀ run ∈ runs, onDay (f i) d run - D d i ≤ 0 := by
      intro run hrun
      obtain ⟨r, hr, rfl⟩ := row_of h hrun hd
      rw [onDay_row h hrun hr, ← (h.data run hrun r hr).1]
      linarith [ho run hrun r hr rfl]
    have h3 : (runs.map fun run => |onDay (f i) d run - D d i|) = runs.map fun run => (-1) * (onDay (f i) d run - D d i) :=
      List.map_congr_left fun run hrun => by rw [abs_of_nonpos (this run hrun)]; ring
    have h4 : (runs.map fun run => onDay (f i) d run - D d i).sum ≤ 0 := by
      have := sum_le (fun run => onDay (f i) d run - D d i) (fun _ => 0) runs this
      simpa using this
    rw [h3, List.sum_map_mul_left, abs_of_nonpos h4]
    ring

private theorem scaled_eq : (UqRow.rescaled : Fin n → UqRow n → ℚ) = scaled := by
  funext i r
  unfold UqRow.rescaled scaled
  by_cases h : 0 < r.inCamps
  · rw [if_pos h, if_neg (not_le.2 h), mul_div_assoc]
  · rw [if_neg h, if_pos (not_lt.1 h)]

/-- C239: the errors that are printed for several runs of a crisis are the means of the errors of the runs. -/
def C239_claim : Prop := ∀ (n : ℕ) (ds : List ℤ) (D : ℤ → Fin n → ℚ) (U : ℤ → ℚ) (runs : List (List (UqRow n))), n ≠ 0 → runs ≠ [] →
  SameCrisis ds D U runs → uqReport runs = .ok (meanError (fun i r => r.sim i) runs, meanError scaled runs)

/-- Two runs of a day with one camp, the first one with too many people and the second one with too few. -/
private def twoRuns : List (List (UqRow 1)) :=
  [[⟨0, fun _ => 6, fun _ => 4, 6, 4⟩], [⟨0, fun _ => 2, fun _ => 4, 2, 4⟩]]

private theorem twoRuns_crisis : SameCrisis [0] (fun _ _ => 4) (fun _ => 4) twoRuns where
  order := by simp
  days := by simp [twoRuns]
  data := by simp [twoRuns]

/-- C239 is false: the runs are averaged before they are compared with the data, so that errors in opposite directions cancel. -/
theorem C239_false : ¬ C239_claim := by
  intro h
  have h1 := h 1 [0] _ _ twoRuns (by simp) (by simp [twoRuns]) twoRuns_crisis
  have h2 : uqReport twoRuns = .ok (0, 0) := by
    simp only [uqReport, twoRuns, if_neg, List.cons_ne_nil, not_false_eq_true, one_ne_zero]
    norm_num [uqError, uqDays, uqDayError, uqMean, UqRow.rescaled]
  have h3 := congrArg Prod.fst (Except.ok.inj (h2.symm.trans h1))
  norm_num [meanError, runError, twoRuns] at h3

/-- C239 in part: the printed errors are at most the means of the errors of the runs, and equal to them if for every day and camp the runs
are all too high or all too low. Missing from the full claim: equality if they are not, which is false, see `C239_false`. -/
theorem C239_partial {ds : List ℤ} {D : ℤ → Fin n → ℚ} {U : ℤ → ℚ} {runs : List (List (UqRow n))} (hn : n ≠ 0) (hr : runs ≠ [])
    (h : SameCrisis ds D U runs) : ∃ a b, uqReport runs = .ok (a, b) ∧
      a ≤ meanError (fun i r => r.sim i) runs ∧ b ≤ meanError scaled runs ∧
      (OneSided (fun i r => r.sim i) runs → a = meanError (fun i r => r.sim i) runs) ∧
      (OneSided scaled runs → b = meanError scaled runs) := by
  refine ⟨_, _, by rw [uqReport, if_neg hr, if_neg hn], error_le h hr _, ?_, error_eq h hr _, ?_⟩
  · rw [scaled_eq]; exact error_le h hr _
  · rw [scaled_eq]; exact error_eq h hr _

example : (1 : ℕ) ≠ 0 ∧ twoRuns ≠ [] ∧ SameCrisis [0] (fun _ _ => 4) (fun _ => 4) twoRuns ∧ OneSided scaled twoRuns := by
  refine ⟨by simp, by simp [twoRuns], twoRuns_crisis, fun d i => .inl ?_⟩
  norm_num [twoRuns, scaled]

/-- C239: the error of a single run is its own. -/
theorem C239_single {run : List (UqRow n)} (hn : n ≠ 0) (h : (run.map (·.day)).Pairwise (· < ·)) :
    uqReport [run] = .ok (runError (fun i r => r.sim i) run, runError scaled run) := by
  have key : ∀ f : Fin n → UqRow n → ℚ, uqError f run = runError f run := by
    intro f
    have hnd := ordered_nodup h
    have hdays : uqDays run = run.map (·.day) := by
      rw [uqDays, hnd.dedup]
      exact List.Pairwise.insertionSort_eq (h.imp le_of_lt)
    rw [uqError, runError, hdays, List.map_map, List.length_map]
    congr 2
    refine List.map_congr_left fun r hr => ?_
    simp [uqDayError, uqMean, filter_one hnd hr]
  rw [uqReport, if_neg (by simp), if_neg hn]
  simp only [List.flatten_cons, List.flatten_nil, List.append_nil, key, scaled_eq]

example : (2 : ℕ) ≠ 0 ∧ (([⟨0, ![1, 2], ![3, 4], 3, 7⟩, ⟨1, ![5, 6], ![3, 4], 11, 7⟩] : List (UqRow 2)).map (·.day)).Pairwise (· < ·) := by
  simp

/-- C239: the order in which the runs are read does not matter. -/
theorem C239_order {runs runs' : List (List (UqRow n))} (h : runs.Perm runs') : uqReport runs = uqReport runs' := by
  have hf := h.flatten
  have hmean : ∀ (f : UqRow n → ℚ) d, uqMean f runs.flatten d = uqMean f runs'.flatten d := by
    intro f d
    have hp := hf.filter fun r => r.day = d
    rw [uqMean, uqMean, (hp.map f).sum_eq, hp.length_eq]
  have hdays : uqDays runs.flatten = uqDays runs'.flatten := by
    have hp : (uqDays runs.flatten).Perm (uqDays runs'.flatten) :=
      ((List.perm_insertionSort _ _).trans (hf.map _).dedup).trans (List.perm_insertionSort _ _).symm
    exact hp.eq_of_pairwise (fun a b _ _ h1 h2 => le_antisymm h1 h2) (List.pairwise_insertionSort _ _) (List.pairwise_insertionSort _ _)
  have herr : ∀ f : Fin n → UqRow n → ℚ, uqError f runs.flatten = uqError f runs'.flatten := by
    intro f
    have : uqDayError f runs.flatten = uqDayError f runs'.flatten := by
      funext d
      simp only [uqDayError, hmean]
    rw [uqError, uqError, hdays, this]
  have hnil : runs = [] ↔ runs' = [] := by
    constructor
    · rintro rfl; exact h.nil_eq.symm
    · rintro rfl; exact h.eq_nil
  simp only [uqReport, hnil, herr]

example : twoRuns.Perm twoRuns.reverse ∧ twoRuns ≠ twoRuns.reverse := by
  refine ⟨(List.reverse_perm _).symm, fun h => ?_⟩
  have := congrArg (fun l => (l.headD []).map fun r => r.inCamps) h
  norm_num [twoRuns] at this

/-- C239: the rescaled means of all camps add up to the mean total of the data on every day on which all runs have people in camps. -/
theorem C239_sums {rows : List (UqRow n)} {d : ℤ} (h : ∀ r ∈ rows, r.day = d → 0 < r.inCamps ∧ r.inCamps = ∑ i, r.sim i) :
    ∑ i, uqMean (UqRow.rescaled i) rows d = uqMean (·.unhcr) rows d := by
  simp only [uqMean]
  rw [← Finset.sum_div, sum_fin]
  congr 2
  refine List.map_congr_left fun r hr => ?_
  rw [List.mem_filter] at hr
  obtain ⟨h1, h2⟩ := h r hr.1 (by simpa using hr.2)
  simp only [UqRow.rescaled, if_pos h1, mul_div_assoc]
  rw [← Finset.sum_mul, ← h2]
  field_simp

example : ∀ r ∈ twoRuns.flatten, r.day = 0 → 0 < r.inCamps ∧ r.inCamps = ∑ i, r.sim i := by
  norm_num [twoRuns]

end Flee
