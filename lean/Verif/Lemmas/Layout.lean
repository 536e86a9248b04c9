import Verif.Lemmas.AddTables
import Verif.Lemmas.DataFiles
import Verif.Lemmas.Corrections

/-!
Facts about the layout of data directories and about the effect of corrections.
-/

namespace Flee

open Spec

theorem addTablesFrom_same : ∀ (rest : Column) (cur : ℚ × ℚ) (last : Option (ℚ × ℚ)) (t2 : Column),
    (cur :: rest).map (·.1) = t2.map (·.1) →
    addTablesFrom last cur rest t2 = .ok (List.zipWith (fun r q => (q.1, q.2 + r.2)) (cur :: rest) t2)
  | rest, cur, last, [], h => by simp at h
  | rest, cur, last, c :: t2, h => by
    simp only [List.map_cons, List.cons.injEq] at h
    obtain ⟨h1, h2⟩ := h
    simp only [addTablesFrom, addRows_none h1.ge]
    show (if c.1 = cur.1 then _ else _) = _
    rw [if_pos h1.symm]
    cases rest with
    | nil =>
      have : t2 = [] := by simpa using h2.symm
      subst this
      rfl
    | cons r rs =>
      show ((addTablesFrom (some c) r rs t2) >>= _) = _
      rw [addTablesFrom_same rs r (some c) t2 h2]
      rfl

theorem addTables_same {a b : Column} (h : a.map (·.1) = b.map (·.1)) (hb : b ≠ []) :
    addTables a b = .ok (List.zipWith (fun r q => (q.1, q.2 + r.2)) a b) := by
  obtain ⟨q, b', rfl⟩ := List.exists_cons_of_ne_nil hb
  cases a with
  | nil => simp at h
  | cons r a => exact addTablesFrom_same a r none (q :: b') h

theorem sumOf_two {a b : Column} {parts : List Column} {col : Column} (h : SumOf (a :: b :: parts) col) :
    SumOf (List.zipWith (fun r q => (q.1, q.2 + r.2)) a b :: parts) col ∧ a.map (·.1) = b.map (·.1) := by
  obtain ⟨h1, h2⟩ := h
  have ha := h1 a (by simp)
  have hb := h1 b (by simp)
  have hab := ha.trans hb.symm
  refine ⟨⟨fun c hc => ?_, fun i r hr => ?_⟩, hab⟩
  · rcases List.mem_cons.1 hc with rfl | hc
    · rw [← hb]
      have hl : a.length = b.length := by simpa using congrArg List.length hab
      clear hc h1 h2 ha hb hab
      induction a generalizing b with
      | nil =>
        cases b with
        | nil => rfl
        | cons _ _ => simp at hl
      | cons x a ih =>
        cases b with
        | nil => simp at hl
        | cons y b => simp [ih (b := b) (by simpa using hl)]
    · exact h1 c (by simp [hc])
  · rw [h2 i r hr]
    have hlen : ∀ {c : Column}, c.map (·.1) = col.map (·.1) → i < c.length := fun {c} hc => by
      have : c.length = col.length := by simpa using congrArg List.length hc
      rw [this]
      exact (List.getElem?_eq_some_iff.1 hr).1
    have ga := List.getElem?_eq_getElem (hlen ha)
    have gb := List.getElem?_eq_getElem (hlen hb)
    simp only [List.map_cons, List.sum_cons, List.getElem?_zipWith, ga, gb, Option.map_some, Option.getD_some]
    ring

theorem sumOf_one {a col : Column} (h : SumOf [a] col) : a = col := by
  have h1 := h.1 a (by simp)
  have hl : a.length = col.length := by simpa using congrArg List.length h1
  refine List.ext_getElem hl fun i hi hi' => ?_
  have e1 : a[i].1 = col[i].1 := by
    have := congrArg (fun l => l[i]?) h1
    simpa [hi, hi'] using this
  have e2 := h.2 i col[i] (List.getElem?_eq_getElem hi')
  simp [List.getElem?_eq_getElem hi] at e2
  exact Prod.ext e1 e2.symm

theorem readFile_data {n : Numerals} {start : String} {scale : ℚ} {rows : List Row} {col : Column} (hk : scale ≠ 0)
    (h : DataFile n start scale rows col) : readColumn n start scale rows = .ok col := by
  obtain ⟨h1, h2, h3⟩ := h
  obtain ⟨r, rs, rfl⟩ := List.exists_cons_of_ne_nil h2
  exact lines_column hk h1 h3

theorem addFile_fold {n : Numerals} {start : String} {scale : ℚ} {files : String → Except Err (List Row)} (hk : scale ≠ 0)
    {fs : List String} {parts : List Column}
    (h : List.Forall₂ (fun f c => ∃ rows, files f = .ok rows ∧ DataFile n start scale rows c) fs parts) :
    ∀ {a col : Column}, SumOf (a :: parts) col → col ≠ [] → fs.foldlM (addFile n start scale files) a = .ok col := by
  induction h with
  | nil => exact fun hs _ => congrArg Except.ok (sumOf_one hs)
  | @cons f c fs parts hf _ ih =>
    intro a col hs hne
    obtain ⟨rows, h1, h2⟩ := hf
    obtain ⟨h3, h4⟩ := sumOf_two hs
    have hc : c ≠ [] := by
      rintro rfl
      have := hs.1 [] (by simp)
      exact hne (by simpa using this.symm)
    simp only [List.foldlM_cons, addFile, h1, readFile_data hk h2, bind, Except.bind, addTables_same h4 hc]
    exact ih h3 hne

theorem layout_read {n : Numerals} {start : String} {scale : ℚ} {files : String → Except Err (List Row)} (hk : scale ≠ 0)
    {rows : List Row} {cs : List (String × Column)} (h : Layout n start scale files rows cs) :
    readLayout n start scale files rows = .ok cs := by
  induction h with
  | nil => rfl
  | @skip r rs cs hr _ ih =>
    rcases r with _ | ⟨s, _ | ⟨f, more⟩⟩
    · exact ih
    · exact ih
    · rcases hr with hr | ⟨s', more', he, hc⟩
      · simp at hr
      · cases he
        rcases hs : s.toList with _ | ⟨ch, t⟩
        · rw [hs] at hc
          cases hc
        · rw [hs] at hc
          have : ch = '#' := by simpa using hc
          simp only [readLayout, isComment, hs, this, bind, Except.bind, decide_true, if_true]
          exact ih
  | @line name fs rs col parts cs h1 h2 h3 h4 h5 h6 _ ih =>
    cases h4 with
    | nil => exact absurd rfl h3
    | @cons f c fs parts hf hfs =>
      obtain ⟨lines, g1, g2⟩ := hf
      rcases hs : name.toList with _ | ⟨ch, t⟩
      · exact absurd (String.toList_eq_nil_iff.1 hs) h1
      · rw [hs] at h2
        have hch : ch ≠ '#' := by simpa using h2
        simp only [readLayout, isComment, hs, hch, bind, Except.bind, decide_false, Bool.false_eq_true, if_false, g1,
          readFile_data hk g2, addFile_fold hk hfs h5 h6, ih]
        rfl

theorem findColumn_first {name : String} {c : Column} : ∀ {hs : List String} {cols : List Column} {j : Nat},
    hs[j]? = some name → (∀ i < j, hs[i]? ≠ some name) → cols[j]? = some c → findColumn name hs cols = .ok c
  | [], _, j, h, _, _ => by simp at h
  | x :: hs, cols, 0, h, _, hc => by
    have : x = name := by simpa using h
    cases cols with
    | nil => simp at hc
    | cons d cols =>
      have : d = c := by simpa using hc
      simp [findColumn, *]
  | x :: hs, cols, j + 1, h, hb, hc => by
    have hx : x ≠ name := fun he => hb 0 (by omega) (by simp [he])
    cases cols with
    | nil => simp at hc
    | cons d cols =>
      simp only [findColumn, hx, if_false, List.drop_succ_cons, List.drop_zero]
      exact findColumn_first (j := j) (by simpa using h) (fun i hi => by simpa using hb (i + 1) (by omega)) (by simpa using hc)

theorem replaceColumn_first {name : String} {c : Column} : ∀ {hs : List String} {cols : List Column} {j : Nat},
    hs[j]? = some name → (∀ i < j, hs[i]? ≠ some name) → j < cols.length → replaceColumn name c hs cols = cols.set j c
  | [], _, j, h, _, _ => by simp at h
  | x :: hs, cols, 0, h, _, hc => by
    have : x = name := by simpa using h
    cases cols with
    | nil => simp at hc
    | cons d cols => simp [replaceColumn, *]
  | x :: hs, cols, j + 1, h, hb, hc => by
    have hx : x ≠ name := fun he => hb 0 (by omega) (by simp [he])
    cases cols with
    | nil => simp at hc
    | cons d cols =>
      simp only [replaceColumn, hx, if_false, List.set_cons_succ]
      rw [replaceColumn_first (j := j) (by simpa using h) (fun i hi => by simpa using hb (i + 1) (by omega)) (by simpa using hc)]

end Flee
